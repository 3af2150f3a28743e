import Verif.Proofs.HostedEval

/-
The evaluation of a task starts at most one flow, and only if the task then waits.
-/

namespace Flow.Bnd
open Spec Eng GraphM

/-- At most one flow instance is added, and none unless `b`. -/
def Grown (b : Bool) (e e' : Eng) : Prop := e'.insts.length ≤ e.insts.length + if b then 1 else 0

variable {env : Env} {i o : Nat} {b : Bool} {e e' f : Eng}

theorem Grown.refl (b : Bool) (e : Eng) : Grown b e e := Nat.le_add_right _ _

theorem Grown.eq (h : e'.insts.length = e.insts.length) (b : Bool) : Grown b e e' := by
  unfold Grown; omega

theorem Grown.trans (h : Grown false e e') (g : Grown b e' f) : Grown b e f := by
  unfold Grown at *
  simp only [Bool.false_eq_true, if_false] at h
  omega

theorem Grown.evals (h : Evals env i o none e e') : e'.insts.length = e.insts.length := by
  generalize hs : (none : Option String) = s at h
  induction h with
  | refl e => rfl
  | inst e f h => exact modI_length _ _ _
  | reply e r => rfl
  | sub e uri d inputs h _ _ => rw [h] at hs; cases hs
  | trans _ _ ih1 ih2 => exact ih2.trans ih1

theorem grown_startSubFlow (e : Eng) (uri : String) (ins : AMap String Val) :
    Grown (isWait (e.startSubFlow env i o uri ins).2) e (e.startSubFlow env i o uri ins).1 := by
  unfold Eng.startSubFlow
  cases env.defs uri with
  | error err => exact .refl _ _
  | ok x =>
  cases x with
  | none => exact .refl _ _
  | some d =>
    show Grown true e (Eng.startInstance env (e.newEmbedded i o uri d) e.insts.length (subflowInputs d ins))
    unfold Grown
    rw [(StartFrame.startInstance _ _ _).len]
    simp [Eng.newEmbedded]

theorem grown_callActivity (e : Eng) (ob : Obj) (td : TaskDef) (h : (e.obj? i o).map (·.task) = some ob.task) :
    Grown (isWait (e.callActivity env i o ob td).2.1) e (e.callActivity env i o ob td).1 := by
  have hev := Evals.callActivity (env := env) e ob td h
  cases hs : td.act.sub? with
  | none => rw [hs] at hev; exact .eq (Grown.evals hev) _
  | some uri =>
    have ha : td.act = .subflow uri := by
      revert hs
      cases td.act <;> simp [ActKind.sub?]
    unfold Eng.callActivity
    rw [ha]
    dsimp only
    exact Grown.trans (.eq (modI_length _ _ _) false) (grown_startSubFlow _ _ _)

theorem grown_evalWith (p : Eng × Bool) (ob : Obj) (td : TaskDef) (h : (p.1.obj? i o).map (·.task) = some ob.task) :
    Grown (isWait (evalWith env p i o ob td).2) p.1 (evalWith env p i o ob td).1 := by
  have had : ∀ f : Eng, Grown (isWait (f.afterDone env i o ob td).2) f (f.afterDone env i o ob td).1 := by
    intro f
    exact .eq (Grown.evals (Evals.afterDone (env := env) _ _ _)) _
  unfold Eng.evalWith
  split
  · exact had _
  · split
    · exact .refl _ _
    · split
      · exact had _
      · have hc := grown_callActivity (env := env) p.1 ob td h
        split
        · rename_i hx
          rw [hx] at hc
          have hc : Grown false _ _ := hc
          refine hc.trans (b := false) ?_
          dsimp only
          split
          · exact .refl _ _
          · exact .eq (Grown.evals (env := env) (o := o) (Evals.evalErrorData _ _ _)) _
        · rename_i hx
          rw [hx] at hc
          have hc : Grown false _ _ := hc
          exact hc.trans (had _)
        · rename_i hx
          rw [hx] at hc
          exact hc

theorem grown_evalOnce (e : Eng) : Grown (isWait (e.evalOnce env i o).2) e (e.evalOnce env i o).1 := by
  unfold Eng.evalOnce
  cases ho : e.obj? i o with
  | none => exact .refl _ _
  | some ob =>
    dsimp only
    cases ht : e.taskDef? i ob.task with
    | none => exact .refl _ _
    | some td =>
      dsimp only
      have h1 := Evals.applyInputMapper (env := env) (i := i) (o := o) (s := none) e td.name
      split
      · rename_i hx; rw [hx] at h1; exact .eq (Grown.evals h1) _
      · rename_i e1 hx
        rw [hx] at h1
        have h2 := h1.trans (Evals.inputInterceptor (env := env) (i := i) (o := o) (s := none) e1 ob)
        refine Grown.trans (.eq (Grown.evals h2) false) (grown_evalWith _ ob td ?_)
        obtain ⟨ob', ho', ht', _⟩ := h2.obj_task ho
        simp [ho', ht']

theorem grown_retryFrom (n : Nat) (e : Eng) : Grown (isWait (retryFrom env n e i o).2) e (retryFrom env n e i o).1 := by
  induction n generalizing e with
  | zero => exact Grown.trans (.eq (modI_length _ _ _) false) (grown_evalOnce _)
  | succ n ih =>
    have h3 : Grown _ e _ := Grown.trans (.eq (modI_length _ _ _) false) (grown_evalOnce (env := env) (i := i) (o := o) (e.setRetry i o (n + 1)))
    simp only [Eng.retryFrom]
    split
    · rename_i e1 err hx
      rw [hx] at h3
      have h3 : Grown false e e1 := h3
      split
      · exact h3.trans (ih e1)
      · exact h3
    · exact h3

theorem grown_evalActivity (e : Eng) : Grown (isWait (e.evalActivity env i o).2) e (e.evalActivity env i o).1 := by
  have h3 := grown_evalOnce (env := env) (i := i) (o := o) e
  unfold Eng.evalActivity
  split
  · rename_i hx; rw [hx] at h3; exact h3
  · rename_i e1 err hx
    rw [hx] at h3
    have h3 : Grown false e e1 := h3
    split
    · have h4 := Evals.getRetry (env := env) (i := i) (o := o) (s := none) e1
      split
      · rename_i hy; rw [hy] at h4; exact h3.trans (.eq (Grown.evals h4) _)
      · rename_i e2 c hy
        rw [hy] at h4
        have h5 : Grown false e e2 := h3.trans (.eq (Grown.evals h4) _)
        split
        · exact h5.trans (grown_retryFrom _ _)
        · exact h5
    · exact h3

theorem grown_status (h : Grown b e e') (s : TaskStatus) : Grown b e (e'.setStatus i o s) := by
  unfold Grown at *
  rw [show (e'.setStatus i o s).insts.length = e'.insts.length from modI_length _ _ _]
  exact h

theorem grown_evalKind (e : Eng) (td : TaskDef) : Grown (waits (e.evalKind env i o td).2) e (e.evalKind env i o td).1 := by
  unfold Eng.evalKind
  split
  · have h := grown_evalActivity (env := env) (i := i) (o := o) e
    unfold Eng.evalBasic
    split <;> rename_i hx <;> rw [hx] at h <;> exact h
  · unfold Eng.evalIter
    split
    · exact .refl _ _
    · exact .refl _ _
    · rename_i it _
      dsimp only
      split
      · exact .eq (modI_length _ _ _) _
      · split
        · exact .refl _ _
        · rename_i v hv
          have h : Grown _ e _ := Grown.trans (.eq (modI_length _ _ _) false) (grown_evalActivity (env := env) (i := i) (o := o)
            (e.modI i (fun I => I.modO o (fun x => { x with iter := some it.next.1, iteration := some (it.next.1.key, v, it.next.1.current) }))))
          split <;> rename_i hx <;> rw [hx] at h
          · exact grown_status h _
          · exact grown_status h _
          · exact h
  · unfold Eng.evalDoWhile
    have h : Grown _ e _ := Grown.trans (.eq (modI_length _ _ _) false) (grown_evalActivity (env := env) (i := i) (o := o) (e.dwInit i o))
    split <;> rename_i hx <;> rw [hx] at h
    · exact grown_status h _
    · exact grown_status h _
    · unfold Eng.dwCheck
      have h : Grown false _ _ := h
      exact h.trans (.eq (modI_length _ _ _) _)

end Flow.Bnd
