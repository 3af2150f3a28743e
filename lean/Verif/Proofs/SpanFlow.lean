import Verif.Proofs.SpanRun
import Verif.Proofs.GraphEng

/-
Spans of flow instances: they are started inside the span of the task that calls them and finished when the instance ends.
-/

namespace Flow
open Spec

namespace SpanSt

/-- The operation fits: `n` flow instances exist, the context of task instance `o` of flow instance `i` is in state `c`. -/
def Fits (i o : Nat) (c : Ctx) (n : Nat) : SpanOp → Prop
  | .startTask a b => a = i ∧ b = o ∧ i < n
  | .startFlow j a b => j = n ∧ a = i ∧ b = o ∧ c = .opened
  | .endFlow j _ => j < n
  | _ => True

/-- The number of flow instances after the operation. -/
def grow (n : Nat) : SpanOp → Nat
  | .startFlow .. => n + 1
  | _ => n

/-- All operations fit, and afterwards `n'` flow instances exist. -/
def Nest (i o : Nat) : Ctx → Nat → List SpanOp → Nat → Prop
  | _, n, [], n' => n' = n
  | c, n, op :: ops, n' => Fits i o c n op ∧ Nest i o (scan1 i o c op) (grow n op) ops n'

theorem Nest.append {i o : Nat} {a b : List SpanOp} : ∀ {c : Ctx} {n m n' : Nat}, Nest i o c n a m → Nest i o (scan i o c a) m b n' → Nest i o c n (a ++ b) n' := by
  induction a with
  | nil => intro c n m n' h g; cases h; exact g
  | cons op ops ih => intro c n m n' h g; exact ⟨h.1, ih h.2 g⟩

/-- Operations that start nothing. -/
def Ending (n : Nat) : SpanOp → Prop
  | .startTask .. => False
  | .startFlow .. => False
  | .endFlow j _ => j < n
  | _ => True

theorem Nest.ending {i o n : Nat} {ops : List SpanOp} (h : ∀ op ∈ ops, Ending n op) : ∀ c, Nest i o c n ops n := by
  induction ops with
  | nil => intro c; rfl
  | cons op ops ih =>
    intro c
    have h1 := h op List.mem_cons_self
    have ih := ih (fun x hx => h x (List.mem_cons_of_mem _ hx))
    cases op with
    | startTask => exact False.elim h1
    | startFlow => exact False.elim h1
    | endTask => exact ⟨trivial, ih _⟩
    | dropTask => exact ⟨trivial, ih _⟩
    | endFlow => exact ⟨h1, ih _⟩

end SpanSt

namespace Eng

open SpanSt

variable {env : Env} {i o : Nat}

theorem evals_len {e f : Eng} (h : Evals env i o none e f) : f.insts.length = e.insts.length := by
  generalize hs : (none : Option String) = s at h
  induction h with
  | refl e => rfl
  | inst e F _ => exact modI_length ..
  | reply => rfl
  | sub e uri d inputs h2 => subst hs; cases h2
  | trans _ _ h1 h2 => exact h2.trans h1

theorem nest_flows (n : Nat) : ∀ k, Nest i o .opened n ((List.range' n k).map (fun j => SpanOp.startFlow j i o)) (n + k) := by
  intro k
  induction k generalizing n with
  | zero => rfl
  | succ k ih =>
    rw [List.range'_succ, List.map_cons]
    refine ⟨⟨rfl, rfl, rfl, rfl⟩, ?_⟩
    have := ih (n + 1)
    rwa [show n + 1 + k = n + (k + 1) by omega] at this

theorem spanOnce_nest (e : Eng) (hi : i < e.insts.length) (c : Ctx) : Nest i o c e.insts.length (spanOnce env e i o) (evalOnce env e i o).1.insts.length := by
  have hle := (Evals.evalOnce (env := env) (i := i) (o := o) e).obj.1
  have h1 : scan1 i o c (.startTask i o) = .opened := by
    show (if _ then _ else _) = _
    rw [if_pos ⟨rfl, rfl⟩]
  refine ⟨⟨rfl, rfl, hi⟩, ?_⟩
  rw [h1]
  have := nest_flows (i := i) (o := o) e.insts.length ((evalOnce env e i o).1.insts.length - e.insts.length)
  rwa [show e.insts.length + ((evalOnce env e i o).1.insts.length - e.insts.length) = (evalOnce env e i o).1.insts.length by omega] at this

theorem setRetry_len (e : Eng) (c : Int) : (e.setRetry i o c).insts.length = e.insts.length := modI_length ..

theorem getRetry_len (e : Eng) : (e.getRetry env i o).1.insts.length = e.insts.length := evals_len (Evals.getRetry (s := none) e)

theorem spanRetry_nest : ∀ (n : Nat) (e : Eng), i < e.insts.length → ∀ c, Nest i o c e.insts.length (spanRetry env n e i o) (retryFrom env n e i o).1.insts.length
  | 0, e, hi, c => by
    have := spanOnce_nest (env := env) (i := i) (o := o) (e.setRetry i o 0) (by rw [setRetry_len]; exact hi) c
    rwa [setRetry_len] at this
  | n + 1, e, hi, c => by
    have h := spanOnce_nest (env := env) (i := i) (o := o) (e.setRetry i o (n + 1)) (by rw [setRetry_len]; exact hi) c
    rw [setRetry_len] at h
    have hle := (Evals.evalOnce (env := env) (i := i) (o := o) (e.setRetry i o (n + 1))).obj.1
    rw [setRetry_len] at hle
    unfold spanRetry retryFrom
    refine h.append ?_
    cases hx : evalOnce env (e.setRetry i o (n + 1)) i o with
    | mk e1 r =>
      rw [hx] at hle
      cases r with
      | ok b => rfl
      | error err =>
        dsimp only
        split
        · exact ⟨trivial, spanRetry_nest n e1 (Nat.lt_of_lt_of_le hi hle) _⟩
        · rfl

theorem spanActivity_nest (e : Eng) (hi : i < e.insts.length) (c : Ctx) : Nest i o c e.insts.length (spanActivity env e i o) (evalActivity env e i o).1.insts.length := by
  have h := spanOnce_nest (env := env) (i := i) (o := o) e hi c
  have hle := (Evals.evalOnce (env := env) (i := i) (o := o) e).obj.1
  unfold spanActivity evalActivity
  refine h.append ?_
  cases hx : evalOnce env e i o with
  | mk e1 r =>
    rw [hx] at hle
    cases r with
    | ok b => rfl
    | error err =>
      dsimp only
      split
      · have hg := getRetry_len (env := env) (i := i) (o := o) e1
        cases hy : getRetry env e1 i o with
        | mk e2 rc =>
          rw [hy] at hg
          cases rc with
          | error x => exact hg
          | ok k =>
            dsimp only
            split
            · rw [show e1.insts.length = e2.insts.length from hg.symm]
              refine ⟨trivial, spanRetry_nest _ _ ?_ _⟩
              rw [show e2.insts.length = e1.insts.length from hg]; exact Nat.lt_of_lt_of_le hi hle
            · exact hg
      · rfl

theorem spanEval_nest (e : Eng) (td : TaskDef) (hi : i < e.insts.length) (c : Ctx) :
    Nest i o c e.insts.length (spanEval env e i o td) (evalKind env e i o td).1.insts.length := by
  unfold spanEval Eng.evalKind
  cases hk : td.kind with
  | basic =>
    have h := spanActivity_nest (env := env) (i := i) (o := o) e hi c
    dsimp only
    unfold Eng.evalBasic
    cases hx : evalActivity env e i o with
    | mk e1 r =>
      rw [hx] at h
      cases r with
      | error err => exact h
      | ok b => cases b <;> exact h
  | doWhile =>
    have h := spanActivity_nest (env := env) (i := i) (o := o) (e.dwInit i o) (by unfold Eng.dwInit; rw [modI_length]; exact hi) c
    rw [show (e.dwInit i o).insts.length = e.insts.length from modI_length ..] at h
    dsimp only
    unfold Eng.evalDoWhile
    cases hx : evalActivity env (e.dwInit i o) i o with
    | mk e1 r =>
      rw [hx] at h
      cases r with
      | error err => dsimp only; unfold Eng.setStatus; rw [modI_length]; exact h
      | ok b =>
        cases b with
        | false => first | exact h | (dsimp only; unfold Eng.setStatus; rw [modI_length]; exact h)
        | true => dsimp only; unfold Eng.dwCheck Eng.dwUpdate; dsimp only; rw [modI_length]; exact h
  | iterator =>
    dsimp only
    unfold spanIter Eng.evalIter
    cases hg : getIter env e i o td with
    | error err => rfl
    | ok oit =>
      cases oit with
      | none => rfl
      | some it =>
        dsimp only
        by_cases hn : it.next.2 = false
        · rw [if_pos hn, if_pos hn]; exact modI_length ..
        · rw [if_neg hn, if_neg hn]
          cases hv : it.next.1.value with
          | none => rfl
          | some v =>
            dsimp only
            have h := spanActivity_nest (env := env) (i := i) (o := o) (e.modI i (fun I => I.modO o (fun x =>
              { x with iter := some it.next.1, iteration := some (it.next.1.key, v, it.next.1.current) }))) (by rw [modI_length]; exact hi) c
            rw [modI_length] at h
            cases hx : evalActivity env (e.modI i (fun I => I.modO o (fun x =>
              { x with iter := some it.next.1, iteration := some (it.next.1.key, v, it.next.1.current) }))) i o with
            | mk e1 r =>
              rw [hx] at h
              cases r with
              | error err => dsimp only; unfold Eng.setStatus; rw [modI_length]; exact h
              | ok b =>
                cases b with
                | false => dsimp only; unfold Eng.setStatus; rw [modI_length]; exact h
                | true => exact h

theorem spanPost_nest (e : Eng) (td : TaskDef) (hi : i < e.insts.length) (c : Ctx) :
    Nest i o c e.insts.length (spanPost env e i o td) (postKind env e i o td).1.insts.length := by
  unfold spanPost Eng.postKind
  cases hk : td.kind with
  | basic =>
    dsimp only
    unfold Eng.postBasic
    have h := evals_len (Evals.postOnce (env := env) (i := i) (o := o) (s := none) e)
    cases hx : postOnce env e i o with
    | mk e1 r =>
      rw [hx] at h
      have h : e1.insts.length = e.insts.length := h
      cases r with
      | ok b => exact h
      | error err =>
        dsimp only
        split
        · have hg := getRetry_len (env := env) (i := i) (o := o) e1
          cases hy : getRetry env e1 i o with
          | mk e2 rc =>
            rw [hy] at hg
            have hg2 : e2.insts.length = e.insts.length := Eq.trans hg h
            cases rc with
            | error x => exact hg2
            | ok k =>
              dsimp only
              split
              · have hr := spanRetry_nest (env := env) (i := i) (o := o) (k.toNat - 1) e2 (by rw [hg2]; exact hi)
                rw [hg2] at hr
                cases hz : retryFrom env (k.toNat - 1) e2 i o with
                | mk e3 r3 =>
                  rw [hz] at hr
                  cases r3 with
                  | error x => exact ⟨trivial, hr _⟩
                  | ok b => cases b <;> exact ⟨trivial, hr _⟩
              · exact hg2
        · exact h
  | iterator =>
    dsimp only
    unfold Eng.postIter
    have h := evals_len (Evals.postOnce (env := env) (i := i) (o := o) (s := none) e)
    cases hx : postOnce env e i o with
    | mk e1 r =>
      rw [hx] at h
      cases r with
      | error err => dsimp only; unfold Eng.setStatus; exact (modI_length ..).trans h
      | ok b =>
        dsimp only
        split <;> (unfold Eng.setStatus; exact (modI_length ..).trans h)
  | doWhile =>
    dsimp only
    unfold Eng.postDoWhile
    have h := evals_len (Evals.postOnce (env := env) (i := i) (o := o) (s := none) (e.dwInit i o))
    rw [show (e.dwInit i o).insts.length = e.insts.length from modI_length ..] at h
    cases hx : postOnce env (e.dwInit i o) i o with
    | mk e1 r =>
      rw [hx] at h
      cases r with
      | error err => dsimp only; unfold Eng.setStatus; exact (modI_length ..).trans h
      | ok b => dsimp only; unfold Eng.dwCheck Eng.dwUpdate Eng.setStatus; dsimp only; rw [modI_length]; exact (modI_length ..).trans h

/-- After the evaluation nothing is started. -/
theorem spanResult_ending (e : Eng) (t : TaskRef) (r : EvalOut) {n : Nat} (hi : i < n) : ∀ op ∈ spanResult env e i o t r, Ending n op := by
  have hg : ∀ (f : Eng) (err : Err), ∀ op ∈ f.spanGlobal i err, Ending n op := by
    unfold spanGlobal
    intro f err op hop
    split at hop
    · cases hop
    · split at hop
      · cases hop
      · split at hop
        · cases hop
        · split at hop
          · cases hop
          · rw [List.mem_singleton] at hop; subst hop; exact hi
  have hf : ∀ (f : Eng) (b : Bool), ∀ op ∈ f.spanFinish i b, Ending n op := by
    unfold spanFinish spanComplete
    intro f b op hop
    split at hop
    · cases hop
    · split at hop
      · split at hop
        · cases hop
        · rw [List.mem_singleton] at hop; subst hop; exact hi
      · cases hop
  have hd : ∀ op ∈ spanTaskDone env e i o t, Ending n op := by
    unfold spanTaskDone
    intro op hop
    rcases List.mem_cons.1 hop with hx | hx
    · subst hx; trivial
    · split at hx
      · cases hx
      · split at hx
        · exact hg _ _ op hx
        · exact hf _ _ op hx
  intro op hop
  unfold spanResult at hop
  split at hop
  · unfold spanTaskError at hop
    rcases List.mem_cons.1 hop with hx | hx
    · subst hx; trivial
    · split at hx
      · cases hx
      · split at hx
        · cases hx
        · split at hx
          · split at hx
            · cases hx
            · rw [List.mem_singleton] at hx; subst hx; exact hi
          · exact hg _ _ op hx
  · exact hd op hop
  · exact hd op hop
  · cases hop
  · rw [List.mem_singleton] at hop; subst hop; trivial
  · rcases List.mem_cons.1 hop with hx | hx
    · subst hx; trivial
    · rw [List.mem_singleton] at hx; subst hx; trivial
  · rcases List.mem_cons.1 hop with hx | hx
    · subst hx; trivial
    · exact hg _ _ op hx

theorem spanExec_nest {e : Eng} {ob : Obj} (ho : e.obj? i o = some ob) {e' : Eng} {r : EvalOut} (h : outcome env e i o = some (e', r)) (c : Ctx) :
    Nest i o c e.insts.length (spanExec env e i o) (exec env e i o).insts.length := by
  obtain ⟨td, htd, hex⟩ := exec_outcome ho h
  have hi := lt_of_obj? ho
  obtain ⟨e1, hev, heff⟩ := outcome_evals h
  have hle : e.insts.length ≤ e'.insts.length := by
    have := hev.obj.1
    rcases heff with rfl | ⟨st, rfl⟩
    · exact this
    · unfold Eng.setStatus; rw [modI_length]; exact this
  rw [hex, GraphM.handleResult_len]
  rcases spanExec_eq ho htd h with ⟨_, h1, h2⟩ | ⟨_, h1, h2⟩
  · rw [h2]
    have hn := spanPost_nest (env := env) (i := i) (o := o) e td hi c
    rw [← h1] at hn
    exact hn.append (Nest.ending (spanResult_ending _ _ _ (Nat.lt_of_lt_of_le hi hle)) _)
  · rw [h2]
    have hn := spanEval_nest (env := env) (i := i) (o := o) e td hi c
    rw [← h1] at hn
    exact hn.append (Nest.ending (spanResult_ending _ _ _ (Nat.lt_of_lt_of_le hi hle)) _)

theorem spanEnter_ending (e : Eng) (x : TaskEntry) : ∀ op ∈ e.spanEnter x, Ending e.insts.length op := by
  unfold spanEnter
  intro op hop
  split at hop
  · cases hop
  · rename_i I hI
    have hlt := (List.getElem?_eq_some_iff.1 hI).1
    split at hop
    · unfold spanSkipped at hop
      split at hop
      · cases hop
      · split at hop
        · cases hop
        · unfold spanFinish spanComplete at hop
          split at hop
          · cases hop
          · split at hop
            · split at hop
              · cases hop
              · rw [List.mem_singleton] at hop; subst hop; exact hlt
            · cases hop
    · cases hop

/-- The instances that an evaluation creates are called by the evaluated task. -/
theorem evals_host {s : Option String} {e f : Eng} (h : Evals env i o s e f) : ∀ (k : Nat) (K : Inst), e.insts.length ≤ k → f.insts[k]? = some K → K.host = some (i, o) := by
  induction h with
  | refl e => intro k K hk hK; exact absurd (List.getElem?_eq_some_iff.1 hK).1 (Nat.not_lt.2 hk)
  | inst e F _ =>
    intro k K hk hK
    have := (List.getElem?_eq_some_iff.1 hK).1
    rw [modI_length] at this
    omega
  | reply e r => intro k K hk hK; exact absurd (List.getElem?_eq_some_iff.1 hK).1 (Nat.not_lt.2 hk)
  | sub e uri d inputs _ _ _ =>
    intro k K hk hK
    have fr := StartFrame.startInstance (env := env) e.insts.length (e.newEmbedded i o uri d) inputs
    have hlt := (List.getElem?_eq_some_iff.1 hK).1
    rw [fr.len, newEmbedded_length] at hlt
    have : k = e.insts.length := by omega
    subst this
    obtain ⟨I', h1, h2⟩ := startInstance_calm (env := env) (e.newEmbedded i o uri d) e.insts.length inputs (newEmbedded_new e i o uri d)
    rw [h1] at hK; cases hK
    rw [h2.host]; rfl
  | @trans e f g h1 h2 ih1 ih2 =>
    intro k K hk hK
    by_cases hf : f.insts.length ≤ k
    · exact ih2 k K hf hK
    · obtain ⟨_, a2, a3, _⟩ := h2.obj
      have hlt : k < f.insts.length := Nat.lt_of_not_le hf
      cases hJ : f.insts[k]? with
      | none => exact absurd (List.getElem?_eq_none_iff.1 hJ) hf
      | some J =>
        have hh := ih1 k J hk hJ
        by_cases hki : k = i
        · subst hki
          obtain ⟨J', hJ', hs⟩ := a2 J hJ
          rw [hJ'] at hK; cases hK
          rw [hs.host]; exact hh
        · rw [a3 k hki hlt, hJ] at hK; cases hK; exact hh

end Eng

end Flow
