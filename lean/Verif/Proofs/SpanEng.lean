import Verif.Proofs.Spans
import Verif.Proofs.Waits

/-
Spans: what one step of the engine does to the context of the executed task instance.
-/

namespace Flow
open Spec

namespace Eng

open SpanSt

variable {env : Env} {i o : Nat}

/-- The operation concerns no other task instance. -/
def About (i o : Nat) : SpanOp → Prop
  | .startTask j p => j = i ∧ p = o
  | .endTask j p _ => j = i ∧ p = o
  | .dropTask j p => j = i ∧ p = o
  | _ => True

/-- The operation concerns flow instances only. -/
def OnFlow : SpanOp → Prop
  | .startFlow .. => True
  | .endFlow .. => True
  | _ => False

theorem onFlow_about {op : SpanOp} (h : OnFlow op) : About i o op := by cases op <;> first | trivial | exact False.elim h

theorem scan_flow {ops : List SpanOp} (h : ∀ op ∈ ops, OnFlow op) (c : Ctx) : scan i o c ops = c ∧ Single i o c ops ∧ Safe i o c ops := by
  induction ops with
  | nil => exact ⟨rfl, trivial, trivial⟩
  | cons op ops ih =>
    have h1 := h op List.mem_cons_self
    obtain ⟨a, b, d⟩ := ih (fun x hx => h x (List.mem_cons_of_mem _ hx))
    have h2 : scan1 i o c op = c := by cases op <;> first | rfl | exact False.elim h1
    refine ⟨?_, ⟨?_, ?_⟩, ⟨?_, ?_⟩⟩
    · show scan i o (scan1 i o c op) ops = c
      rw [h2]; exact a
    · cases op <;> first | trivial | exact False.elim h1
    · rw [h2]; exact b
    · cases op <;> first | trivial | exact False.elim h1
    · rw [h2]; exact d

theorem scan_other {j p : Nat} (hne : ¬ (j = i ∧ p = o)) {ops : List SpanOp} (h : ∀ op ∈ ops, About i o op) (c : Ctx) :
    scan j p c ops = c ∧ Single j p c ops ∧ Safe j p c ops := by
  induction ops with
  | nil => exact ⟨rfl, trivial, trivial⟩
  | cons op ops ih =>
    have h1 := h op List.mem_cons_self
    obtain ⟨a, b, d⟩ := ih (fun x hx => h x (List.mem_cons_of_mem _ hx))
    have h2 : scan1 j p c op = c ∧ Single1 j p c op ∧ Safe1 j p c op := by
      cases op with
      | startTask x y =>
        obtain ⟨rfl, rfl⟩ := h1
        refine ⟨?_, trivial, fun hx hy => absurd ⟨hx.symm, hy.symm⟩ hne⟩
        show (if _ then _ else _) = _
        rw [if_neg (fun hx => hne ⟨hx.1.symm, hx.2.symm⟩)]
      | endTask x y err =>
        obtain ⟨rfl, rfl⟩ := h1
        refine ⟨?_, fun hx hy => absurd ⟨hx.symm, hy.symm⟩ hne, trivial⟩
        show (if _ then _ else _) = _
        rw [if_neg (fun hx => hne ⟨hx.1.symm, hx.2.1.symm⟩)]
      | dropTask x y =>
        obtain ⟨rfl, rfl⟩ := h1
        refine ⟨?_, trivial, fun hx hy => absurd ⟨hx.symm, hy.symm⟩ hne⟩
        show (if _ then _ else _) = _
        rw [if_neg (fun hx => hne ⟨hx.1.symm, hx.2.symm⟩)]
      | startFlow => exact ⟨rfl, trivial, trivial⟩
      | endFlow => exact ⟨rfl, trivial, trivial⟩
    refine ⟨?_, ⟨h2.2.1, ?_⟩, ⟨h2.2.2, ?_⟩⟩
    · show scan j p (scan1 j p c op) ops = c
      rw [h2.1]; exact a
    · rw [h2.1]; exact b
    · rw [h2.1]; exact d

/-- The operations of an evaluation of the activity: the last span is left open. -/
structure Opens (i o : Nat) (c : Ctx) (ops : List SpanOp) : Prop where
  last : scan i o c ops = .opened
  single : Single i o c ops
  safe : c ≠ .opened → Safe i o c ops
  about : ∀ op ∈ ops, About i o op

/-- The operations of an evaluation that follows the open span of an earlier one. -/
structure Continues (i o : Nat) (ops : List SpanOp) : Prop where
  last : scan i o .opened ops = .opened
  single : Single i o .opened ops
  safe : Safe i o .opened ops
  about : ∀ op ∈ ops, About i o op

theorem Continues.nil : Continues i o [] := ⟨rfl, trivial, trivial, fun _ h => nomatch h⟩

theorem Opens.append {c : Ctx} {a b : List SpanOp} (h : Opens i o c a) (g : Continues i o b) : Opens i o c (a ++ b) := by
  refine ⟨?_, ?_, fun hc => ?_, fun op hop => ?_⟩
  · rw [scan_append, h.last]; exact g.last
  · rw [single_append, h.last]; exact ⟨h.single, g.single⟩
  · rw [safe_append, h.last]; exact ⟨h.safe hc, g.safe⟩
  · rcases List.mem_append.1 hop with hx | hx
    · exact h.about op hx
    · exact g.about op hx

/-- The span of an attempt that is retried is finished. -/
theorem Continues.retry {ops : List SpanOp} (h : Opens i o .closed ops) (err : Option Err) : Continues i o (.endTask i o err :: ops) := by
  have h1 : scan1 i o .opened (.endTask i o err) = .closed := by
    show (if _ then _ else _) = _
    rw [if_pos ⟨rfl, rfl, rfl⟩]
  refine ⟨?_, ⟨fun _ _ => (nomatch ·), ?_⟩, ⟨trivial, ?_⟩, fun op hop => ?_⟩
  · show scan i o (scan1 i o .opened _) ops = _
    rw [h1]; exact h.last
  · rw [h1]; exact h.single
  · rw [h1]; exact h.safe (nomatch ·)
  · rcases List.mem_cons.1 hop with hx | hx
    · subst hx; exact ⟨rfl, rfl⟩
    · exact h.about op hx

theorem spanOnce_opens (e : Eng) (c : Ctx) : Opens i o c (spanOnce env e i o) := by
  have hf : ∀ op ∈ (List.range' e.insts.length ((evalOnce env e i o).1.insts.length - e.insts.length)).map (fun j => SpanOp.startFlow j i o), OnFlow op := by
    intro op hop
    obtain ⟨j, _, rfl⟩ := List.mem_map.1 hop
    trivial
  have h1 : scan1 i o c (.startTask i o) = .opened := by
    show (if _ then _ else _) = _
    rw [if_pos ⟨rfl, rfl⟩]
  obtain ⟨a, b, d⟩ := scan_flow (i := i) (o := o) hf .opened
  unfold spanOnce
  refine ⟨?_, ⟨trivial, ?_⟩, fun hc => ⟨fun _ _ => hc, ?_⟩, fun op hop => ?_⟩
  · show scan i o (scan1 i o c _) _ = _
    rw [h1]; exact a
  · rw [h1]; exact b
  · rw [h1]; exact d
  · rcases List.mem_cons.1 hop with hx | hx
    · subst hx; exact ⟨rfl, rfl⟩
    · exact onFlow_about (hf op hx)

theorem spanRetry_opens : ∀ (n : Nat) (e : Eng) (c : Ctx), Opens i o c (spanRetry env n e i o)
  | 0, e, c => spanOnce_opens _ c
  | n + 1, e, c => by
    unfold spanRetry
    refine (spanOnce_opens _ c).append ?_
    split
    · split
      · exact .retry (spanRetry_opens n _ _) _
      · exact .nil
    · exact .nil

theorem spanActivity_opens (e : Eng) (c : Ctx) : Opens i o c (spanActivity env e i o) := by
  unfold spanActivity
  refine (spanOnce_opens e c).append ?_
  split
  · exact .nil
  · split
    · split
      · exact .nil
      · split
        · exact .retry (spanRetry_opens _ _ _) _
        · exact .nil
    · exact .nil

theorem spanPost_continues (e : Eng) (td : TaskDef) : Continues i o (spanPost env e i o td) := by
  unfold spanPost
  split
  · split
    · exact .nil
    · split
      · split
        · exact .nil
        · split
          · exact .retry (spanRetry_opens _ _ _) _
          · exact .nil
      · exact .nil
  · exact .nil

/-- `Eval`: either the activity is evaluated, or the task is an iterator that does not wait afterwards. -/
theorem spanEval_opens (e : Eng) (td : TaskDef) :
    (∀ c, Opens i o c (spanEval env e i o td)) ∨
    (spanEval env e i o td = [] ∧ td.kind = .iterator ∧ (e.evalKind env i o td).2 ≠ .res .wait) := by
  unfold spanEval Eng.evalKind
  cases hk : td.kind with
  | basic => exact Or.inl (fun c => spanActivity_opens e c)
  | doWhile => exact Or.inl (fun c => spanActivity_opens _ c)
  | iterator =>
    dsimp only
    unfold spanIter Eng.evalIter
    cases hg : getIter env e i o td with
    | error err => exact Or.inr ⟨rfl, rfl, nofun⟩
    | ok oit =>
      cases oit with
      | none => exact Or.inr ⟨rfl, rfl, nofun⟩
      | some it =>
        dsimp only
        by_cases hn : it.next.2 = false
        · rw [if_pos hn, if_pos hn]; exact Or.inr ⟨rfl, rfl, nofun⟩
        · rw [if_neg hn]
          cases hv : it.next.1.value with
          | none => rw [if_neg hn]; exact Or.inr ⟨rfl, rfl, nofun⟩
          | some v => exact Or.inl (fun c => spanActivity_opens _ c)

theorem spanGlobal_flow (e : Eng) (k : Nat) (err : Err) : ∀ op ∈ e.spanGlobal k err, OnFlow op := by
  unfold spanGlobal
  intro op hop
  split at hop
  · cases hop
  · split at hop
    · cases hop
    · split at hop
      · cases hop
      · split at hop
        · cases hop
        · rw [List.mem_singleton] at hop; subst hop; trivial

theorem spanComplete_flow (k : Nat) : ∀ op ∈ spanComplete k, OnFlow op := by
  unfold spanComplete
  intro op hop
  split at hop
  · cases hop
  · rw [List.mem_singleton] at hop; subst hop; trivial

theorem spanFinish_flow (e : Eng) (k : Nat) (b : Bool) : ∀ op ∈ e.spanFinish k b, OnFlow op := by
  unfold spanFinish
  intro op hop
  split at hop
  · cases hop
  · split at hop
    · exact spanComplete_flow k op hop
    · cases hop

theorem spanSkipped_flow (e : Eng) (k p : Nat) : ∀ op ∈ e.spanSkipped k p, OnFlow op := by
  unfold spanSkipped
  intro op hop
  split at hop
  · cases hop
  · split at hop
    · cases hop
    · exact spanFinish_flow _ _ _ op hop

theorem spanEnter_flow (e : Eng) (x : TaskEntry) : ∀ op ∈ e.spanEnter x, OnFlow op := by
  unfold spanEnter
  intro op hop
  split at hop
  · cases hop
  · split at hop
    · exact spanSkipped_flow _ _ _ op hop
    · cases hop

/-- With which error the span ends. -/
def endErr (e : Eng) (i o : Nat) (t : TaskRef) : EvalOut → Option Err
  | .err err => some err
  | .panic m => some (.plain ("unhandled Error executing task '" ++ t.id ++ "' : " ++ m))
  | .res .fail => (e.obj? i o).bind (·.returnError)
  | _ => none

/-- The operations after an evaluation that does not wait: the span is finished; before the next round of a loop it is
forgotten. -/
theorem spanResult_shape (e : Eng) (t : TaskRef) (r : EvalOut) (hr : r ≠ .res .wait) :
    ∃ rest, spanResult env e i o t r = .endTask i o (endErr e i o t r) :: rest ∧
      ((rest = [.dropTask i o] ∧ r = .res .again) ∨ ∀ op ∈ rest, OnFlow op) := by
  unfold spanResult
  cases r with
  | err err =>
    refine ⟨_, rfl, Or.inr (fun op hop => ?_)⟩
    split at hop
    · cases hop
    · split at hop
      · cases hop
      · split at hop
        · split at hop
          · cases hop
          · rw [List.mem_singleton] at hop; subst hop; trivial
        · exact spanGlobal_flow _ _ _ op hop
  | res r =>
    have hdone : ∃ rest, spanTaskDone env e i o t = .endTask i o none :: rest ∧ ∀ op ∈ rest, OnFlow op := by
      refine ⟨_, rfl, fun op hop => ?_⟩
      split at hop
      · cases hop
      · split at hop
        · exact spanGlobal_flow _ _ _ op hop
        · exact spanFinish_flow _ _ _ op hop
    cases r with
    | done =>
      obtain ⟨rest, h1, h2⟩ := hdone
      exact ⟨rest, h1, Or.inr h2⟩
    | skip =>
      obtain ⟨rest, h1, h2⟩ := hdone
      exact ⟨rest, h1, Or.inr h2⟩
    | wait => exact absurd rfl hr
    | fail => exact ⟨[], rfl, Or.inr (fun _ h => nomatch h)⟩
    | again => exact ⟨_, rfl, Or.inl ⟨rfl, rfl⟩⟩
  | panic m => exact ⟨_, rfl, Or.inr (spanGlobal_flow _ _ _)⟩

theorem spanResult_scan (e : Eng) (t : TaskRef) (r : EvalOut) (hr : r ≠ .res .wait) (c : Ctx) :
    scan i o c (spanResult env e i o t r) ≠ .opened ∧ (c ≠ .closed → Single i o c (spanResult env e i o t r)) ∧
    Safe i o c (spanResult env e i o t r) ∧ ∀ op ∈ spanResult env e i o t r, About i o op := by
  obtain ⟨rest, h1, h2⟩ := spanResult_shape (env := env) (i := i) (o := o) e t r hr
  rw [h1]
  have hc : ∀ err, scan1 i o c (.endTask i o err) ≠ .opened := by
    intro err
    show (if _ then _ else _) ≠ _
    split
    · nofun
    · rename_i hn; exact fun hx => hn ⟨rfl, rfl, hx⟩
  have key : scan i o (scan1 i o c (.endTask i o (endErr e i o t r))) rest ≠ .opened ∧
      Single i o (scan1 i o c (.endTask i o (endErr e i o t r))) rest ∧
      Safe i o (scan1 i o c (.endTask i o (endErr e i o t r))) rest ∧ ∀ op ∈ rest, About i o op := by
    rcases h2 with ⟨rfl, _⟩ | h2
    · refine ⟨?_, ⟨trivial, trivial⟩, ⟨fun _ _ => hc _, trivial⟩, fun op hop => ?_⟩
      · show (if i = i ∧ o = o then Ctx.none else _) ≠ _
        rw [if_pos ⟨rfl, rfl⟩]; nofun
      · rw [List.mem_singleton] at hop; subst hop; exact ⟨rfl, rfl⟩
    · obtain ⟨a, b, d⟩ := scan_flow (i := i) (o := o) h2 (scan1 i o c (.endTask i o (endErr e i o t r)))
      exact ⟨by rw [a]; exact hc _, b, d, fun op hop => onFlow_about (h2 op hop)⟩
  refine ⟨key.1, fun hx => ⟨fun _ _ => hx, key.2.1⟩, ⟨trivial, key.2.2.1⟩, fun op hop => ?_⟩
  rcases List.mem_cons.1 hop with hx | hx
  · subst hx; exact ⟨rfl, rfl⟩
  · exact key.2.2.2 op hx

theorem spanResult_wait (e : Eng) (t : TaskRef) : spanResult env e i o t (.res .wait) = [] := rfl

/-- The operations of an execution. -/
theorem spanExec_eq {e : Eng} {ob : Obj} {td : TaskDef} (ho : e.obj? i o = some ob) (htd : e.taskDef? i ob.task = some td) {e' : Eng} {r : EvalOut}
    (h : outcome env e i o = some (e', r)) :
    (ob.status = .waiting ∧ (e', r) = e.postKind env i o td ∧ spanExec env e i o = spanPost env e i o td ++ spanResult env e' i o ob.task r) ∨
    (ob.status ≠ .waiting ∧ (e', r) = e.evalKind env i o td ∧ spanExec env e i o = spanEval env e i o td ++ spanResult env e' i o ob.task r) := by
  unfold Spec.outcome at h
  rw [ho] at h
  dsimp only at h
  rw [htd] at h
  dsimp only at h
  unfold spanExec
  rw [ho]
  dsimp only
  rw [htd]
  dsimp only
  split at h
  · rename_i hw
    simp only [Option.some.injEq] at h
    refine Or.inl ⟨hw, h.symm, ?_⟩
    rw [hw, h]
  · rename_i hw
    split at h
    · cases h
    · rename_i hn
      simp only [Option.some.injEq] at h
      refine Or.inr ⟨hw, h.symm, ?_⟩
      split
      · rename_i h2; exact absurd h2 hw
      · rename_i h2; exact absurd (Or.inl h2) hn
      · rename_i h2; exact absurd (Or.inr h2) hn
      · rw [h]

theorem spanExec_none {e : Eng} (h : outcome env e i o = none) : spanExec env e i o = [] := by
  unfold Spec.outcome at h
  unfold spanExec
  cases ho : e.obj? i o with
  | none => rfl
  | some ob =>
    rw [ho] at h
    dsimp only at h ⊢
    cases htd : e.taskDef? i ob.task with
    | none => rfl
    | some td =>
      rw [htd] at h
      dsimp only at h ⊢
      split at h
      · cases h
      · rename_i hw
        split at h
        · rename_i hn
          split
          · rename_i h2; exact absurd h2 hw
          · rfl
          · rfl
          · rename_i h2 h3 h4
            rcases hn with h5 | h5
            · exact absurd h5 h3
            · exact absurd h5 h4
        · cases h

/-- What an execution does to the context of the executed task instance, if that of a waiting one is open. -/
theorem exec_spans {e : Eng} {ob : Obj} {td : TaskDef} (ho : e.obj? i o = some ob) (htd : e.taskDef? i ob.task = some td) {e' : Eng} {r : EvalOut}
    (h : outcome env e i o = some (e', r)) {c : Ctx} (hw : ob.status = .waiting → c = .opened) :
    (∀ op ∈ spanExec env e i o, About i o op) ∧ (td.kind ≠ .iterator → Single i o c (spanExec env e i o)) ∧
    ((c = .opened → ob.status = .waiting) → Safe i o c (spanExec env e i o)) ∧
    (r = .res .wait → scan i o c (spanExec env e i o) = .opened) ∧ (r ≠ .res .wait → scan i o c (spanExec env e i o) ≠ .opened) := by
  have fin : ∀ (a : List SpanOp), (∀ op ∈ a, About i o op) → (scan i o c a = .opened ∧ Single i o c a ∨ td.kind = .iterator ∧ r ≠ .res .wait) →
      ((c = .opened → ob.status = .waiting) → Safe i o c a) → spanExec env e i o = a ++ spanResult env e' i o ob.task r →
      (∀ op ∈ spanExec env e i o, About i o op) ∧ (td.kind ≠ .iterator → Single i o c (spanExec env e i o)) ∧
      ((c = .opened → ob.status = .waiting) → Safe i o c (spanExec env e i o)) ∧
      (r = .res .wait → scan i o c (spanExec env e i o) = .opened) ∧ (r ≠ .res .wait → scan i o c (spanExec env e i o) ≠ .opened) := by
    intro a h1 h2 h3 heq
    rw [heq]
    by_cases hr : r = .res .wait
    · subst hr
      rw [spanResult_wait, List.append_nil]
      rcases h2 with ⟨h4, h5⟩ | ⟨_, h4⟩
      · exact ⟨h1, fun _ => h5, h3, fun _ => h4, fun hx => absurd rfl hx⟩
      · exact absurd rfl h4
    · obtain ⟨b1, b2, b3, b4⟩ := spanResult_scan (env := env) (i := i) (o := o) e' ob.task r hr (scan i o c a)
      refine ⟨fun op hop => ?_, fun hk => ?_, fun hx => ?_, fun hx => absurd hx hr, fun _ => ?_⟩
      · rcases List.mem_append.1 hop with hx | hx
        · exact h1 op hx
        · exact b4 op hx
      · rw [single_append]
        rcases h2 with ⟨h4, h5⟩ | ⟨h4, _⟩
        · exact ⟨h5, b2 (by rw [h4]; nofun)⟩
        · exact absurd h4 hk
      · rw [safe_append]; exact ⟨h3 hx, b3⟩
      · rw [scan_append]; exact b1
  rcases spanExec_eq ho htd h with ⟨h1, h2, h3⟩ | ⟨h1, h2, h3⟩
  · have hc := hw h1
    subst hc
    have g := spanPost_continues (env := env) (i := i) (o := o) e td
    exact fin _ g.about (Or.inl ⟨g.last, g.single⟩) (fun _ => g.safe) h3
  · rcases spanEval_opens (env := env) (i := i) (o := o) e td with g | ⟨g1, g2, g3⟩
    · exact fin _ (g c).about (Or.inl ⟨(g c).last, (g c).single⟩) (fun hx => (g c).safe (fun hc => h1 (hx hc))) h3
    · rw [g1] at h3
      exact fin [] (fun _ h => nomatch h) (Or.inr ⟨g2, by rw [show r = (e.evalKind env i o td).2 by rw [← h2]]; exact g3⟩) (fun _ => trivial) h3

end Eng

end Flow
