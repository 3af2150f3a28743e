import Verif.Model.TaskIds
import Verif.Proofs.SpanRun
import Verif.Proofs.SpanTree

/-
Helper lemmas for identifiers of task instances.
-/

namespace Flow
open Spec

namespace IdSt
open SpanSt

variable {i o : Nat}

theorem applyAll_cons (x : IdSt) (op : SpanOp) (ops : List SpanOp) : x.applyAll (op :: ops) = (x.apply op).applyAll ops := rfl

theorem applyAll_append (x : IdSt) (a b : List SpanOp) : x.applyAll (a ++ b) = (x.applyAll a).applyAll b := List.foldl_append ..

theorem apply_st (x : IdSt) (op : SpanOp) : (x.apply op).st = x.st.apply op := by
  unfold apply
  cases op with
  | dropTask i o => dsimp only; split <;> rfl
  | _ => rfl

theorem applyAll_st (ops : List SpanOp) : ∀ x : IdSt, (x.applyAll ops).st = x.st.applyAll ops := by
  induction ops with
  | nil => exact fun _ => rfl
  | cons op ops ih =>
    intro x
    rw [applyAll_cons, ih, apply_st]; rfl

theorem owned_applyAll (ops : List SpanOp) : ∀ {st : SpanSt} {s : Nat} {u : SpanOwner}, OwnedBy st.log s u → OwnedBy (st.applyAll ops).log s u := by
  induction ops with
  | nil => exact fun h => h
  | cons op ops ih =>
    intro st s u h
    refine ih (st := st.apply op) ?_
    obtain ⟨p, hp⟩ := h
    unfold SpanSt.apply
    cases op with
    | startTask i o => exact ⟨p, List.mem_cons_of_mem _ hp⟩
    | startFlow j i o => exact ⟨p, List.mem_cons_of_mem _ hp⟩
    | endTask i o err =>
      dsimp only; split
      · exact ⟨p, hp⟩
      · exact ⟨p, List.mem_cons_of_mem _ hp⟩
    | endFlow j err =>
      dsimp only; split
      · exact ⟨p, hp⟩
      · exact ⟨p, List.mem_cons_of_mem _ hp⟩
    | dropTask i o => exact ⟨p, hp⟩

/-- Numbers in use are at most the counter. -/
structure Ok (x : IdSt) : Prop where
  num : ∀ i o k, x.num i o = some k → k ≤ x.count i o
  tag : ∀ s i o k, OwnedBy x.st.log s (.task i o) → (s, some k) ∈ x.tags → k ≤ x.count i o
  old : ∀ s y, (s, y) ∈ x.tags → s < x.st.next
  has : ∀ s i o, OwnedBy x.st.log s (.task i o) → ∃ y, (s, y) ∈ x.tags
  one : ∀ s y z, (s, y) ∈ x.tags → (s, z) ∈ x.tags → y = z

theorem owned_lt {st : SpanSt} (w : st.WF) {s : Nat} {u : SpanOwner} (h : OwnedBy st.log s u) : s < st.next := by
  obtain ⟨p, hp⟩ := h
  exact w.lt s u p hp

theorem Ok.apply {x : IdSt} (h : x.Ok) (w : x.st.WF) (op : SpanOp) : (x.apply op).Ok := by
  have hown : ∀ {s i o}, OwnedBy (x.st.apply op).log s (.task i o) → OwnedBy x.st.log s (.task i o) ∨ op = .startTask i o :=
    fun hk => owned_apply hk
  have hle : x.st.next ≤ (x.st.apply op).next := by
    unfold SpanSt.apply
    cases op with
    | startTask i o => exact Nat.le_succ _
    | startFlow j i o => exact Nat.le_succ _
    | endTask i o err => dsimp only; split <;> exact Nat.le_refl _
    | endFlow j err => dsimp only; split <;> exact Nat.le_refl _
    | dropTask i o => exact Nat.le_refl _
  cases op with
  | startTask i o =>
    refine ⟨h.num, fun s j p k hs hk => ?_, fun s y hy => ?_, fun s j p hs => ?_, fun s y z hy hz => ?_⟩
    · rcases List.mem_cons.1 hk with hx | hx
      · rw [Prod.mk.injEq] at hx
        obtain ⟨rfl, hy⟩ := hx
        obtain ⟨q, hq⟩ := hs
        rcases List.mem_cons.1 hq with hq | hq
        · cases hq
          exact h.num _ _ _ hy.symm
        · exact absurd (w.lt _ _ _ hq) (Nat.lt_irrefl _)
      · obtain ⟨q, hq⟩ := hs
        rcases List.mem_cons.1 hq with hq | hq
        · cases hq
          exact absurd (h.old _ _ hx) (Nat.lt_irrefl _)
        · exact h.tag s j p k ⟨q, hq⟩ hx
    · rcases List.mem_cons.1 hy with hx | hx
      · cases hx; exact Nat.lt_succ_self _
      · exact Nat.lt_succ_of_lt (h.old s y hx)
    · obtain ⟨q, hq⟩ := hs
      rcases List.mem_cons.1 hq with hq | hq
      · cases hq; exact ⟨_, List.mem_cons_self⟩
      · obtain ⟨y, hy⟩ := h.has s j p ⟨q, hq⟩
        exact ⟨y, List.mem_cons_of_mem _ hy⟩
    · rcases List.mem_cons.1 hy with hx | hx
      · rw [Prod.mk.injEq] at hx
        obtain ⟨rfl, rfl⟩ := hx
        rcases List.mem_cons.1 hz with hx | hx
        · rw [Prod.mk.injEq] at hx; exact hx.2.symm
        · exact absurd (h.old _ _ hx) (Nat.lt_irrefl _)
      · rcases List.mem_cons.1 hz with hw | hw
        · rw [Prod.mk.injEq] at hw
          obtain ⟨rfl, _⟩ := hw
          exact absurd (h.old _ _ hx) (Nat.lt_irrefl _)
        · exact h.one s y z hx hw
  | dropTask i o =>
    unfold IdSt.apply
    dsimp only
    split
    · exact ⟨h.num, fun s j p k hs hk => h.tag s j p k hs hk, h.old, h.has, h.one⟩
    · refine ⟨fun j p k hk => ?_, fun s j p k hs hk => ?_, h.old, h.has, h.one⟩
      · dsimp only at hk ⊢
        split at hk
        · rename_i hc
          cases hk
          rw [if_pos hc]; exact Nat.le_refl _
        · rename_i hc
          rw [if_neg hc]; exact h.num j p k hk
      · dsimp only
        have := h.tag s j p k hs hk
        split
        · rename_i hc
          obtain ⟨rfl, rfl⟩ := hc
          exact Nat.le_succ_of_le this
        · exact this
  | endTask i o err =>
    refine ⟨h.num, fun s j p k hs hk => ?_, fun s y hy => Nat.lt_of_lt_of_le (h.old s y hy) hle, fun s j p hs => ?_, h.one⟩
    · rcases hown hs with hx | hx
      · exact h.tag s j p k hx hk
      · cases hx
    · rcases hown hs with hx | hx
      · exact h.has s j p hx
      · cases hx
  | startFlow j i o =>
    refine ⟨h.num, fun s j p k hs hk => ?_, fun s y hy => Nat.lt_of_lt_of_le (h.old s y hy) hle, fun s j p hs => ?_, h.one⟩
    · rcases hown hs with hx | hx
      · exact h.tag s j p k hx hk
      · cases hx
    · rcases hown hs with hx | hx
      · exact h.has s j p hx
      · cases hx
  | endFlow j err =>
    refine ⟨h.num, fun s j p k hs hk => ?_, fun s y hy => Nat.lt_of_lt_of_le (h.old s y hy) hle, fun s j p hs => ?_, h.one⟩
    · rcases hown hs with hx | hx
      · exact h.tag s j p k hx hk
      · cases hx
    · rcases hown hs with hx | hx
      · exact h.has s j p hx
      · cases hx

theorem Ok.applyAll (ops : List SpanOp) : ∀ {x : IdSt}, x.Ok → x.st.WF → (x.applyAll ops).Ok := by
  induction ops with
  | nil => exact fun h _ => h
  | cons op ops ih =>
    intro x h w
    rw [applyAll_cons]
    exact ih (h.apply w op) (by rw [apply_st]; exact w.apply op)

theorem Ok.enter {x : IdSt} (h : x.Ok) (i o : Nat) : (x.enter i o).Ok := by
  refine ⟨fun j p k hk => ?_, h.tag, h.old, h.has, h.one⟩
  unfold IdSt.enter at hk
  dsimp only at hk
  split at hk
  · cases hk
  · exact h.num j p k hk

/-- The operation forgets no context. -/
def Keeps : SpanOp → Prop
  | .dropTask _ _ => False
  | _ => True

/-- Operations that forget no context change no identifier, and tag the spans they start with the present one. -/
theorem keeps_all (ops : List SpanOp) : ∀ {x : IdSt}, x.st.WF → x.Ok → (∀ op ∈ ops, Keeps op) →
    (x.applyAll ops).num = x.num ∧ (x.applyAll ops).count = x.count ∧
    (∀ s y, (s, y) ∈ (x.applyAll ops).tags → (s, y) ∈ x.tags ∨ x.st.next ≤ s) ∧
    ∀ s i o y, (s, y) ∈ (x.applyAll ops).tags → OwnedBy (x.applyAll ops).st.log s (.task i o) → x.st.next ≤ s → y = x.num i o := by
  induction ops with
  | nil =>
    intro x w h _
    exact ⟨rfl, rfl, fun s y hy => Or.inl hy, fun s i o y hy _ hs => absurd (h.old s y hy) (Nat.not_lt.2 hs)⟩
  | cons op ops ih =>
    intro x w h hk
    have h1 := hk op List.mem_cons_self
    have w1 : (x.apply op).st.WF := by rw [apply_st]; exact w.apply op
    obtain ⟨a, b, c, d⟩ := ih w1 (h.apply w op) (fun p hp => hk p (List.mem_cons_of_mem _ hp))
    have hnum : (x.apply op).num = x.num := by cases op <;> first | rfl | exact False.elim h1
    have hcount : (x.apply op).count = x.count := by cases op <;> first | rfl | exact False.elim h1
    have hnext : x.st.next ≤ (x.apply op).st.next := by
      rw [apply_st]
      unfold SpanSt.apply
      cases op with
      | startTask i o => exact Nat.le_succ _
      | startFlow j i o => exact Nat.le_succ _
      | endTask i o err => dsimp only; split <;> exact Nat.le_refl _
      | endFlow j err => dsimp only; split <;> exact Nat.le_refl _
      | dropTask i o => exact False.elim h1
    have htags : ∀ s y, (s, y) ∈ (x.apply op).tags → (s, y) ∈ x.tags ∨ (s = x.st.next ∧ ∃ i o, op = .startTask i o ∧ y = x.num i o) := by
      intro s y hy
      cases op with
      | startTask i o =>
        rcases List.mem_cons.1 hy with hx | hx
        · cases hx; exact Or.inr ⟨rfl, i, o, rfl, rfl⟩
        · exact Or.inl hx
      | dropTask i o => exact False.elim h1
      | _ => exact Or.inl hy
    rw [applyAll_cons]
    refine ⟨a.trans hnum, b.trans hcount, fun s y hy => ?_, fun s i o y hy hs hn => ?_⟩
    · rcases c s y hy with hx | hx
      · rcases htags s y hx with hx | ⟨hx, _⟩
        · exact Or.inl hx
        · exact Or.inr (by rw [hx]; exact Nat.le_refl _)
      · exact Or.inr (Nat.le_trans hnext hx)
    · by_cases hlt : (x.apply op).st.next ≤ s
      · rw [← hnum]; exact d s i o y hy hs hlt
      · rcases c s y hy with hx | hx
        · rcases htags s y hx with hx | ⟨hx, j, p, hop, hyx⟩
          · exact absurd (h.old s y hx) (Nat.not_lt.2 hn)
          · -- the span was started by this operation
            have wf : ((x.apply op).applyAll ops).st.WF := by rw [applyAll_st]; exact w1.applyAll ops
            have hmem : OwnedBy ((x.apply op).applyAll ops).st.log s (.task j p) := by
              have h2 : OwnedBy (x.apply op).st.log s (.task j p) := by
                rw [apply_st, hop, hx]
                exact ⟨_, List.mem_cons_self⟩
              rw [applyAll_st]
              exact owned_applyAll ops h2
            obtain ⟨q, hq⟩ := hs
            obtain ⟨q', hq'⟩ := hmem
            have := wf.uniq s _ _ _ _ hq hq'
            cases this
            exact hyx
        · exact absurd hx hlt

end IdSt

namespace Eng
open IdSt

variable {env : Env} {i o : Nat}

theorem onFlow_keeps {op : SpanOp} (h : OnFlow op) : Keeps op := by cases op <;> first | trivial | exact False.elim h

theorem spanOnce_keeps (e : Eng) : ∀ op ∈ spanOnce env e i o, Keeps op := by
  intro op hop
  rcases List.mem_cons.1 hop with hx | hx
  · subst hx; trivial
  · obtain ⟨j, _, rfl⟩ := List.mem_map.1 hx; trivial

theorem spanRetry_keeps : ∀ (n : Nat) (e : Eng), ∀ op ∈ spanRetry env n e i o, Keeps op
  | 0, e => spanOnce_keeps _
  | n + 1, e => by
    intro op hop
    unfold spanRetry at hop
    rcases List.mem_append.1 hop with hx | hx
    · exact spanOnce_keeps _ op hx
    · split at hx
      · split at hx
        · rcases List.mem_cons.1 hx with hx | hx
          · subst hx; trivial
          · exact spanRetry_keeps n _ op hx
        · cases hx
      · cases hx

theorem spanActivity_keeps (e : Eng) : ∀ op ∈ spanActivity env e i o, Keeps op := by
  intro op hop
  unfold spanActivity at hop
  rcases List.mem_append.1 hop with hx | hx
  · exact spanOnce_keeps _ op hx
  · split at hx
    · cases hx
    · split at hx
      · split at hx
        · cases hx
        · split at hx
          · rcases List.mem_cons.1 hx with hx | hx
            · subst hx; trivial
            · exact spanRetry_keeps _ _ op hx
          · cases hx
      · cases hx

theorem spanEval_keeps (e : Eng) (td : TaskDef) : ∀ op ∈ spanEval env e i o td, Keeps op := by
  intro op hop
  unfold spanEval at hop
  split at hop
  · exact spanActivity_keeps _ op hop
  · unfold spanIter at hop
    split at hop
    · cases hop
    · cases hop
    · split at hop
      · cases hop
      · split at hop
        · cases hop
        · exact spanActivity_keeps _ op hop
  · exact spanActivity_keeps _ op hop

theorem spanPost_keeps (e : Eng) (td : TaskDef) : ∀ op ∈ spanPost env e i o td, Keeps op := by
  intro op hop
  unfold spanPost at hop
  split at hop
  · split at hop
    · cases hop
    · split at hop
      · split at hop
        · cases hop
        · split at hop
          · rcases List.mem_cons.1 hop with hx | hx
            · subst hx; trivial
            · exact spanRetry_keeps _ _ op hx
          · cases hop
      · cases hop
  · cases hop

/-- The operations of an execution: only those after a repeated task forget a context, as the last one. -/
theorem spanExec_keeps {e : Eng} {ob : Obj} {td : TaskDef} (ho : e.obj? i o = some ob) (htd : e.taskDef? i ob.task = some td) {e' : Eng} {r : EvalOut}
    (h : outcome env e i o = some (e', r)) :
    (r ≠ .res .again → ∀ op ∈ spanExec env e i o, Keeps op) ∧
    (r = .res .again → ∃ pre, spanExec env e i o = pre ++ [.dropTask i o] ∧ ∀ op ∈ pre, Keeps op) := by
  have key : ∀ pre, (∀ op ∈ pre, Keeps op) → spanExec env e i o = pre ++ spanResult env e' i o ob.task r →
      (r ≠ .res .again → ∀ op ∈ spanExec env e i o, Keeps op) ∧
      (r = .res .again → ∃ pre, spanExec env e i o = pre ++ [.dropTask i o] ∧ ∀ op ∈ pre, Keeps op) := by
    intro pre hpre heq
    rw [heq]
    refine ⟨fun hr op hop => ?_, fun hr => ?_⟩
    · rcases List.mem_append.1 hop with hx | hx
      · exact hpre op hx
      · by_cases hw : r = .res .wait
        · subst hw; cases hx
        · obtain ⟨rest, h1, h2⟩ := spanResult_shape (env := env) (i := i) (o := o) e' ob.task r hw
          rw [h1] at hx
          rcases List.mem_cons.1 hx with hx | hx
          · subst hx; trivial
          · rcases h2 with ⟨_, h3⟩ | h2
            · exact absurd h3 hr
            · exact onFlow_keeps (h2 op hx)
    · subst hr
      refine ⟨pre ++ [.endTask i o none], ?_, fun op hop => ?_⟩
      · rw [List.append_assoc]; rfl
      · rcases List.mem_append.1 hop with hx | hx
        · exact hpre op hx
        · rw [List.mem_singleton] at hx; subst hx; trivial
  rcases spanExec_eq ho htd h with ⟨_, _, heq⟩ | ⟨_, _, heq⟩
  · exact key _ (spanPost_keeps e td) heq
  · exact key _ (spanEval_keeps e td) heq

/-- An iterator whose activity is not evaluated is not repeated. -/
theorem spanEval_quiet (e : Eng) {td : TaskDef} (hk : td.kind = .iterator) (h : spanEval env e i o td = []) :
    (e.evalKind env i o td).2 ≠ .res .again := by
  unfold spanEval at h
  unfold Eng.evalKind
  rw [hk] at h ⊢
  dsimp only at h ⊢
  unfold spanIter at h
  unfold Eng.evalIter
  cases hg : getIter env e i o td with
  | error err => nofun
  | ok oit =>
    rw [hg] at h
    cases oit with
    | none => nofun
    | some it =>
      dsimp only at h ⊢
      by_cases hn : it.next.2 = false
      · rw [if_pos hn]; nofun
      · rw [if_neg hn] at h
        cases hv : it.next.1.value with
        | none => rw [if_neg hn]; nofun
        | some v =>
          rw [hv] at h
          exact absurd h (by unfold spanActivity spanOnce; nofun)

/-- A repeated task has a context. -/
theorem spanExec_again {e : Eng} {ob : Obj} {td : TaskDef} (ho : e.obj? i o = some ob) (htd : e.taskDef? i ob.task = some td) {e' : Eng}
    (h : outcome env e i o = some (e', .res .again)) {st : SpanSt} (w : st.WF) (hw : ob.status = .waiting → st.state i o = .opened)
    {pre : List SpanOp} (hpre : spanExec env e i o = pre ++ [.dropTask i o]) : ∃ k, (st.applyAll pre).task i o = some k := by
  have key : ∀ p, spanExec env e i o = p ++ spanResult env e' i o ob.task (.res .again) → SpanSt.scan i o (st.state i o) p = .opened →
      ∃ k, (st.applyAll pre).task i o = some k := by
    intro p heq hop
    have hpp : pre = p ++ [.endTask i o none] := by
      have h1 : pre ++ [SpanOp.dropTask i o] = (p ++ [.endTask i o none]) ++ [.dropTask i o] := by
        rw [← hpre, heq, List.append_assoc]; rfl
      exact (List.append_inj' h1 rfl).1
    have hst := (w.all i o p).1
    rw [hop] at hst
    obtain ⟨k, h1, _⟩ := SpanSt.state_opened.1 hst
    refine ⟨k, ?_⟩
    rw [hpp, SpanSt.applyAll_append]
    show ((st.applyAll p).apply (.endTask i o none)).task i o = _
    unfold SpanSt.apply
    dsimp only
    rw [h1]; exact h1
  rcases spanExec_eq ho htd h with ⟨hs, _, heq⟩ | ⟨_, hx, heq⟩
  · refine key _ heq ?_
    rw [hw hs]; exact (spanPost_continues e td).last
  · refine key _ heq ?_
    rcases spanEval_opens (env := env) (i := i) (o := o) e td with hy | ⟨hy, hk, _⟩
    · exact (hy _).last
    · exact absurd (congrArg Prod.snd hx).symm (spanEval_quiet e hk hy)

end Eng

end Flow
