import Verif.Proofs.Accumulate
import Verif.Spec.Attrs

/-
Which steps change an attribute.
-/

namespace Flow
open Spec

namespace Eng

variable {env : Env} {key : String} {i o : Nat} {t : TaskRef} {td : TaskDef}

theorem writes_act (hw : ¬Writes env i o t td key) {c : Eng} (hc : Holds c i o t) : AMap.get? (env.act c i o).sets key = none := by
  cases h : AMap.get? (env.act c i o).sets key with
  | none => rfl
  | some v => exact absurd (.act c hc v h) hw

theorem writes_post (hw : ¬Writes env i o t td key) {c : Eng} (hc : Holds c i o t) : AMap.get? (env.post c i o).sets key = none := by
  cases h : AMap.get? (env.post c i o).sets key with
  | none => rfl
  | some v => exact absurd (.post c hc v h) hw

theorem _root_.Flow.Spec.Holds.evals {s : Option String} {e e' : Eng} (h : Holds e i o t) (he : Evals env i o s e e') : Holds e' i o t := by
  obtain ⟨ob, ho, ht⟩ := h
  obtain ⟨ob', h1, h2, _⟩ := he.obj_task ho
  exact ⟨ob', h1, h2.trans ht⟩

variable (hw : ¬Writes env i o t td key)
include hw

theorem attrs_outputMapper {e : Eng} (hs : Holds e i o t) (name : String) : KeptAttr key e (outputMapper env e i o name).1 := by
  unfold Eng.outputMapper
  split
  · exact .refl e
  · rename_i vals err heq
    refine .mod _ fun I _ => AMap.get?_update_none _ _ ?_ _
    cases h : AMap.get? vals key with
    | none => rfl
    | some v => exact absurd (.out e hs vals err v heq h) hw

theorem attrs_accumulate (ha : td.accumulates = true) (e : Eng) : KeptAttr key e (e.accumulate i o t.id).1 := by
  have hk : "_A." ++ t.id ≠ key := fun h => hw (.accumulated ((accumulates_iff td).1 ha) h.symm)
  unfold Eng.accumulate
  split
  · exact .refl e
  · dsimp only
    split
    · exact .set _ _ hk
    · exact .set _ _ hk
    · exact .refl e

omit hw in
theorem attrs_andThen {e : Eng} {p : Eng × Option Err} (h : KeptAttr key e p.1) {k : Eng → Eng × Option Err}
    (hk : KeptAttr key p.1 (k p.1).1) : KeptAttr key e (andThen p k).1 := by
  obtain ⟨e1, x⟩ := p
  cases x with
  | some err => exact h
  | none => exact h.trans hk

theorem attrs_storeOutputs {e : Eng} (hs : Holds e i o t) : KeptAttr key e (storeOutputs env e i o t.id td).1 := by
  unfold Eng.storeOutputs
  split
  · rename_i ha
    refine attrs_andThen (attrs_accumulate hw ha e) ?_
    split
    · exact attrs_outputMapper hw (hs.evals (env := env) (s := none) (.accumulate e t.id)) _
    · exact .refl _
  · exact attrs_outputMapper hw hs _

omit hw in
theorem attrs_doneOrErr {e : Eng} {p : Eng × Option Err} (h : KeptAttr key e p.1) : KeptAttr key e (doneOrErr p).1 := by
  obtain ⟨e1, x⟩ := p
  cases x <;> exact h

theorem attrs_afterDone {e : Eng} (hs : Holds e i o t) {ob : Obj} (ht : ob.task = t) : KeptAttr key e (afterDone env e i o ob td).1 := by
  subst ht
  unfold Eng.afterDone
  split
  · exact .refl e
  · exact attrs_doneOrErr (attrs_andThen (outputInterceptor_kept e ob td)
      (attrs_andThen (attrs_storeOutputs hw (hs.evals (env := env) (s := none) (.outputInterceptor e ob td))) (assertion_kept (o := o) _ ob).1))

theorem attrs_callActivity {e : Eng} (hs : Holds e i o t) (ob : Obj) : KeptAttr key e (callActivity env e i o ob td).1 := by
  have h0 : KeptAttr key e (e.modI i (fun I => { I with trace := .evalAct o ob.task :: I.trace })) := .same _ fun _ => rfl
  have hs1 : Holds (e.modI i (fun I => { I with trace := .evalAct o ob.task :: I.trace })) i o t := by
    obtain ⟨ob1, ho, ht⟩ := hs
    obtain ⟨I, hI, hob⟩ := obj?_some ho
    exact ⟨ob1, by unfold Eng.obj?; rw [modI_self hI]; exact hob, ht⟩
  have hact := h0.trans (KeptAttr.applyActOut _ i o _ (writes_act hw hs1))
  unfold Eng.callActivity
  dsimp only
  split
  · refine h0.trans ?_
    unfold Eng.startSubFlow
    split
    · exact .refl _
    · exact .refl _
    · exact .sub _ _ _ _ _ _ _
  · split <;> exact hact

theorem attrs_evalErrorData (e : Eng) (err : Err) : KeptAttr key e (e.evalErrorData i t.id err) := by
  refine .mod _ fun I _ => ?_
  dsimp only
  refine (AMap.get?_set_ne _ _ (fun h => hw (.taskError h.symm))).trans ?_
  split
  · rfl
  · exact AMap.get?_set_ne _ _ (fun h => hw (.error h.symm))

omit hw in
theorem attrs_appendErrorData (h1 : "_E" ≠ key) (h2 : "_E." ++ t.id ≠ key) (e : Eng) (err : Err) :
    KeptAttr key e (e.appendErrorData i t.id err) :=
  .mod _ fun _ _ => (AMap.get?_set_ne _ _ h2).trans (AMap.get?_set_ne _ _ h1)

theorem attrs_evalWith (p : Eng × Bool) (hs : Holds p.1 i o t) {ob : Obj} (ht : ob.task = t) : KeptAttr key p.1 (evalWith env p i o ob td).1 := by
  unfold Eng.evalWith
  split
  · exact attrs_afterDone hw hs ht
  · split
    · exact .refl _
    · split
      · exact attrs_afterDone hw hs ht
      · have h1 := attrs_callActivity hw hs ob
        have hs1 := hs.evals (.callActivity (env := env) p.1 ob td (by
          obtain ⟨ob1, ho, ht1⟩ := hs
          rw [ho, ht, ← ht1]; rfl))
        generalize callActivity env p.1 i o ob td = q at h1 hs1
        obtain ⟨e3, x, pk⟩ := q
        cases x with
        | error err =>
          dsimp only
          split
          · exact h1
          · subst ht
            exact KeptAttr.trans h1 (attrs_evalErrorData hw _ _)
        | ok b =>
          cases b with
          | true => exact KeptAttr.trans h1 (attrs_afterDone hw hs1 ht)
          | false => exact h1

theorem attrs_evalOnce {e : Eng} {d : Def} (hs : Stands i o t d e) (htd : d.task? t = some td) :
    KeptAttr key e (evalOnce env e i o).1 := by
  obtain ⟨ob, ho, rfl, h2⟩ := hs.taskDef
  unfold Eng.evalOnce
  rw [ho]
  dsimp only
  rw [h2, htd]
  dsimp only
  have h1 : KeptAttr key e (applyInputMapper env e i o td.name).1 := by
    unfold Eng.applyInputMapper
    split
    · exact .refl e
    · exact .refl e
    · exact .modO _
  have hs1 : Holds _ i o ob.task := Holds.evals (env := env) (s := none) ⟨ob, ho, rfl⟩ (.applyInputMapper e td.name)
  generalize applyInputMapper env e i o td.name = q at h1 hs1
  obtain ⟨e1, x⟩ := q
  cases x with
  | some err => exact h1
  | none =>
    have h3 : KeptAttr key e1 (inputInterceptor env e1 i o ob).1 := by
      unfold Eng.inputInterceptor
      split
      · exact .refl _
      · exact .modO _
    exact (KeptAttr.trans h1 h3).trans (attrs_evalWith hw _ (hs1.evals (env := env) (s := none) (.inputInterceptor e1 ob)) rfl)

theorem attrs_retryFrom {d : Def} (htd : d.task? t = some td) (m : Nat) : ∀ {e : Eng}, Stands i o t d e →
    KeptAttr key e (retryFrom env m e i o).1 := by
  induction m with
  | zero =>
    intro e hs
    have h1 : KeptAttr key e (e.setRetry i o 0) := .modO _
    exact h1.trans (attrs_evalOnce hw (hs.evals (env := env) (s := none) (.setRetry e 0)) htd)
  | succ m ih =>
    intro e hs
    have h1 : KeptAttr key e (e.setRetry i o (m + 1)) := .modO _
    have hs1 := hs.evals (env := env) (s := none) (.setRetry e (m + 1))
    have h2 := h1.trans (attrs_evalOnce hw hs1 htd)
    have hs2 := hs1.evals (.evalOnce (env := env) (e.setRetry i o (m + 1)))
    unfold Eng.retryFrom
    generalize evalOnce env (e.setRetry i o (m + 1)) i o = q at h2 hs2
    obtain ⟨e1, x⟩ := q
    cases x with
    | ok b => exact h2
    | error err =>
      dsimp only
      split
      · exact h2.trans (ih hs2)
      · exact h2

theorem attrs_evalActivity {d : Def} (htd : d.task? t = some td) {e : Eng} (hs : Stands i o t d e) :
    KeptAttr key e (evalActivity env e i o).1 := by
  have h2 := attrs_evalOnce hw hs htd
  have hs2 := hs.evals (.evalOnce (env := env) e)
  unfold Eng.evalActivity
  generalize evalOnce env e i o = q at h2 hs2
  obtain ⟨e1, x⟩ := q
  cases x with
  | ok b => exact h2
  | error err =>
    dsimp only
    split
    · have h4 : KeptAttr key e1 (getRetry env e1 i o).1 := getRetry_kept _
      have hs3 := hs2.evals (env := env) (s := none) (.getRetry e1)
      generalize getRetry env e1 i o = q at h4 hs3
      obtain ⟨e2, y⟩ := q
      cases y with
      | error rerr => exact KeptAttr.trans h2 h4
      | ok c =>
        dsimp only
        split
        · exact (KeptAttr.trans h2 h4).trans (attrs_retryFrom hw htd _ hs3)
        · exact KeptAttr.trans h2 h4
    · exact h2

theorem attrs_evalKind {d : Def} (htd : d.task? t = some td) {e : Eng} (hs : Stands i o t d e) :
    KeptAttr key e (evalKind env e i o td).1 := by
  unfold Eng.evalKind
  cases hk : td.kind with
  | basic =>
    have h1 := attrs_evalActivity hw htd hs
    dsimp only
    unfold Eng.evalBasic
    generalize evalActivity env e i o = q at h1
    obtain ⟨e1, x⟩ := q
    rcases x with err | _ | _ <;> exact h1
  | iterator =>
    dsimp only
    unfold Eng.evalIter
    split
    · exact .refl e
    · exact .refl e
    · rename_i it hit
      dsimp only
      split
      · exact .modO _
      · split
        · exact .refl e
        · rename_i v hv
          have h0 : KeptAttr key e (e.modI i (fun I => I.modO o (fun x =>
            { x with iter := some it.next.1, iteration := some (it.next.1.key, v, it.next.1.current) }))) := .modO _
          have hs1 : Stands i o t d (e.modI i (fun I => I.modO o (fun x =>
            { x with iter := some it.next.1, iteration := some (it.next.1.key, v, it.next.1.current) }))) := by
            obtain ⟨I, ob, hI, ho, ht, hd⟩ := hs
            exact ⟨_, { ob with iter := some it.next.1, iteration := some (it.next.1.key, v, it.next.1.current) }, modI_self hI _, by simp [Inst.modO, ho], ht, hd⟩
          have h1 := h0.trans (attrs_evalActivity hw htd hs1)
          generalize evalActivity env _ i o = q at h1
          obtain ⟨e1, x⟩ := q
          rcases x with err | _ | _
          · exact h1.trans (.setStatus e1 i o .failed)
          · exact h1.trans (.setStatus e1 i o .waiting)
          · exact h1
  | doWhile =>
    dsimp only
    unfold Eng.evalDoWhile
    have h0 : KeptAttr key e (e.dwInit i o) := .modO _
    have h1 := h0.trans (attrs_evalActivity hw htd (hs.evals (env := env) (s := none) (.dwInit e)))
    generalize evalActivity env (e.dwInit i o) i o = q at h1
    obtain ⟨e1, x⟩ := q
    rcases x with err | _ | _
    · exact h1.trans (.setStatus e1 i o .failed)
    · exact h1.trans (.setStatus e1 i o .waiting)
    · exact h1.trans (.modO _)

theorem attrs_postOnce {e : Eng} {d : Def} (hs : Stands i o t d e) (htd : d.task? t = some td) :
    KeptAttr key e (postOnce env e i o).1 := by
  obtain ⟨ob, ho, rfl, h2⟩ := hs.taskDef
  unfold Eng.postOnce
  rw [ho]
  dsimp only
  rw [h2, htd]
  dsimp only
  have h0 : KeptAttr key e (e.modI i (fun I => { I with trace := .postAct o ob.task :: I.trace })) := .same _ fun _ => rfl
  have hs0 : Holds (e.modI i (fun I => { I with trace := .postAct o ob.task :: I.trace })) i o ob.task := by
    obtain ⟨I, hI, hob⟩ := obj?_some ho
    exact ⟨ob, by unfold Eng.obj?; rw [modI_self hI]; exact hob, rfl⟩
  have hs1 : Holds (callPost env (e.modI i (fun I => { I with trace := .postAct o ob.task :: I.trace })) i o td).1 i o ob.task := by
    unfold Eng.callPost
    split
    · dsimp only
      split <;> exact hs0.evals (env := env) (s := none) (.applyActOut _ _)
    · exact hs0
  have h1 := h0.trans (g := (callPost env (e.modI i (fun I => { I with trace := .postAct o ob.task :: I.trace })) i o td).1) (by
    have ha := KeptAttr.applyActOut (e.modI i (fun I => { I with trace := .postAct o ob.task :: I.trace })) i o _
      (writes_post hw hs0)
    unfold Eng.callPost
    split
    · dsimp only
      split <;> exact ha
    · exact .refl _)
  generalize callPost env _ i o td = q at h1 hs1
  obtain ⟨e1, x⟩ := q
  cases x with
  | error err => exact h1
  | ok b =>
    dsimp only
    split
    · exact h1
    · split
      · have h3 : KeptAttr key e1 (postStore env e1 i o ob td).1 := by
          unfold Eng.postStore
          have h4 := attrs_andThen (outputInterceptor_kept (env := env) (key := key) (i := i) (o := o) e1 ob td)
            (k := fun e1 => andThen (if td.accumulates then e1.accumulate i o ob.task.id else outputMapper env e1 i o td.name)
              (fun e2 => assertion env e2 i ob)) (attrs_andThen (by
                split
                · rename_i ha
                  exact attrs_accumulate hw ha _
                · exact attrs_outputMapper hw (hs1.evals (env := env) (s := none) (.outputInterceptor e1 ob td)) _) (assertion_kept (o := o) _ ob).1)
          generalize andThen (outputInterceptor env e1 i o ob td) _ = q at h4
          obtain ⟨e2, y⟩ := q
          cases y <;> exact h4
        exact KeptAttr.trans h1 h3
      · exact h1

theorem attrs_postKind {d : Def} (htd : d.task? t = some td) {e : Eng} (hs : Stands i o t d e) :
    KeptAttr key e (postKind env e i o td).1 := by
  unfold Eng.postKind
  cases hk : td.kind with
  | basic =>
    have h1 := attrs_postOnce hw hs htd
    have hs1 := hs.evals (s := none) (.postOnce (env := env) e)
    dsimp only
    unfold Eng.postBasic
    generalize postOnce env e i o = q at h1 hs1
    obtain ⟨e1, x⟩ := q
    cases x with
    | ok u => exact h1
    | error err =>
      dsimp only
      split
      · have h4 : KeptAttr key e1 (getRetry env e1 i o).1 := getRetry_kept _
        have hs3 := hs1.evals (env := env) (s := none) (.getRetry e1)
        generalize getRetry env e1 i o = q at h4 hs3
        obtain ⟨e2, y⟩ := q
        cases y with
        | error rerr => exact KeptAttr.trans h1 h4
        | ok n =>
          dsimp only
          split
          · have h5 := attrs_retryFrom hw htd (n.toNat - 1) hs3
            generalize retryFrom env (n.toNat - 1) e2 i o = q at h5
            obtain ⟨e3, z⟩ := q
            rcases z with err | _ | _ <;> exact (KeptAttr.trans h1 h4).trans h5
          · exact KeptAttr.trans h1 h4
      · exact h1
  | iterator =>
    have h1 := attrs_postOnce hw hs htd
    dsimp only
    unfold Eng.postIter
    generalize postOnce env e i o = q at h1
    obtain ⟨e1, x⟩ := q
    cases x with
    | error err => exact KeptAttr.trans h1 (.setStatus e1 i o .failed)
    | ok u =>
      dsimp only
      split
      · exact KeptAttr.trans h1 (.setStatus e1 i o .done)
      · exact KeptAttr.trans h1 (.setStatus e1 i o .done)
  | doWhile =>
    have h0 : KeptAttr key e (e.dwInit i o) := .modO _
    have h1 := h0.trans (attrs_postOnce hw (hs.evals (env := env) (s := none) (.dwInit e)) htd)
    dsimp only
    unfold Eng.postDoWhile
    generalize postOnce env (e.dwInit i o) i o = q at h1
    obtain ⟨e1, x⟩ := q
    cases x with
    | error err => exact h1.trans (.setStatus e1 i o .failed)
    | ok u => exact (h1.trans (.setStatus e1 i o .done)).trans (.modO _)

omit hw in
theorem attrs_handleResult (k1 : "_E" ≠ key) (k2 : "_E." ++ t.id ≠ key) (e : Eng) (name : String) (r : EvalOut) : KeptAttr key e (handleResult env e i o t name r) := by
  have hdone : KeptAttr key e (taskDone env e i o t) := by
    unfold Eng.taskDone
    split
    · exact .refl e
    · rename_i I hI
      have hc := (Calm.doneTask env.prio (env.link e i) I o t).attrs
      generalize I.doneTask env.prio (env.link e i) o t = q at hc
      obtain ⟨I1, x⟩ := q
      have h1 : KeptAttr key e (e.modI i (fun _ => I1)) := .const hI hc
      cases x with
      | error m => exact (h1.trans (attrs_appendErrorData k1 k2 _ _)).trans (globalError_kept _ _ _)
      | ok es => exact h1.trans (finishTask_kept _ _ _ _ _ _)
  unfold Eng.handleResult
  split
  · rename_i err
    unfold Eng.taskError
    split
    · exact .refl e
    · rename_i I hI
      have hc := (Calm.errorTask I o t).attrs
      generalize I.errorTask o t = q at hc
      obtain ⟨I1, x⟩ := q
      have h1 : KeptAttr key e (e.modI i (fun _ => I1)) := .const hI hc
      cases x with
      | some es =>
        have h2 : KeptAttr key e (e.modI i (fun _ => I1.setValue ("_E." ++ t.id) (errorObj t.id err))) :=
          .mod _ fun J hJ => by
            rw [hI] at hJ; cases hJ
            exact (AMap.get?_set_ne _ _ k2).trans (by rw [hc])
        exact h2.trans (.ctl rfl)
      | none =>
        dsimp only
        split
        · have h2 := h1.trans (KeptAttr.same (i := i) (fun J => J.setFlowStatus .failed) fun J => setFlowStatus_attrs J _)
          split
          · exact h2.trans (attrs_appendErrorData k1 k2 _ _)
          · exact h2.trans (failHost_kept _ _ _)
        · exact (h1.trans (attrs_appendErrorData k1 k2 _ _)).trans (globalError_kept _ _ _)
  · exact hdone
  · exact hdone
  · exact .setStatus _ _ _ _
  · exact .setStatus _ _ _ _
  · exact .ctl rfl
  · split
    · exact .refl e
    · split
      · exact .refl e
      · exact (attrs_appendErrorData k1 k2 _ _).trans (globalError_kept _ _ _)

/-- A step that evaluates a task which does not write the attribute. -/
theorem attrs_evaluates {e e' : Eng} {r : EvalOut} (hev : Evaluates env e i o t e' r) (htd : e.taskDef? i t = some td) :
    KeptAttr key e (e.step env) := by
  obtain ⟨ob, td1, ho, ht, htd1⟩ := evaluates_obj hev
  rw [htd] at htd1; cases htd1
  subst ht
  obtain ⟨I0, hI0, hob⟩ := obj?_some ho
  obtain ⟨w, hn, hwi, hwo, hwait, hnew⟩ := evaluates_eval hev ho htd
  obtain ⟨⟨name, hstep⟩, _⟩ := evaluates_step hev
  have hst : Stands i o ob.task I0.defn (afterPop env e w) := ⟨I0, ob, hI0, hob, rfl, rfl⟩
  have htd' : I0.defn.task? ob.task = some td := by
    unfold Eng.taskDef? at htd; rw [hI0] at htd; exact htd
  have hpop : KeptAttr key e (afterPop env e w) := .ctl rfl
  have h1 : KeptAttr key e e' := by
    by_cases hs : ob.status = .waiting
    · have h := attrs_postKind hw htd' hst
      rw [← hwait hs] at h
      exact hpop.trans h
    · have h := attrs_evalKind hw htd' hst
      rw [← hnew hs] at h
      exact hpop.trans h
  rw [hstep]
  exact h1.trans (attrs_handleResult (fun h => hw (.error h.symm)) (fun h => hw (.taskError h.symm)) _ _ _)

omit hw in
/-- The attribute of an instance is changed only by a step that evaluates a task which can write it. -/
theorem attr_written {e : Eng} {I : Inst} (hI : e.insts[i]? = some I) (hlen : 0 < e.insts.length)
    (hc : attrAt (e.step env) i key ≠ attrAt e i key) :
    ∃ o t e' r td, Evaluates env e i o t e' r ∧ e.taskDef? i t = some td ∧ Writes env i o t td key := by
  have hk : ¬KeptAttr key e (e.step env) := by
    intro h
    obtain ⟨I', hI', h1⟩ := h i I hI
    apply hc
    unfold Spec.attrAt
    rw [hI, hI']
    exact h1
  by_cases hev : ∃ i' o t e' r, Evaluates env e i' o t e' r
  · obtain ⟨i', o, t, e', r, hev⟩ := hev
    obtain ⟨ob, td, ho, ht, htd⟩ := evaluates_obj hev
    have hwr : Writes env i' o t td key := Classical.byContradiction fun h => hk (attrs_evaluates h hev htd)
    by_cases hii : i = i'
    · subst hii
      exact ⟨o, t, e', r, td, hev, htd, hwr⟩
    · exfalso
      have hact : actor env e = i' := by
        obtain ⟨⟨w, a, rfl, rfl, b⟩, c⟩ := hev
        unfold Spec.actor; rw [a]
      obtain ⟨I', h1, h2⟩ := (Ops.step (env := env) hlen).others i I (by rw [hact]; exact hii) hI
      apply hc
      unfold Spec.attrAt
      rw [hI, h1]
      exact congrArg (fun m => AMap.get? m key) h2.attrs
  · refine absurd (step_kept fun w hn => ?_) hk
    cases ho : outcome env (afterPop env e w) w.inst w.obj with
    | none => rfl
    | some p =>
      exfalso
      have : ∃ ob, e.obj? w.inst w.obj = some ob := by
        cases hx : e.obj? w.inst w.obj with
        | some ob => exact ⟨ob, rfl⟩
        | none =>
          have hx' : (afterPop env e w).obj? w.inst w.obj = none := hx
          unfold Spec.outcome at ho; rw [hx'] at ho; cases ho
      obtain ⟨ob, hob⟩ := this
      exact hev ⟨w.inst, w.obj, ob.task, p.1, p.2, ⟨w, hn, rfl, rfl, ho⟩, by rw [hob]; rfl⟩

/-! ### What the output mapping stores -/

omit hw
section
variable {i o : Nat} {t : TaskRef} {td : TaskDef}

/-- The output mapping was applied, nothing was changed since. -/
def MappedTo (env : Env) (i o : Nat) (t : TaskRef) (e : Eng) : Prop :=
  ∃ c : Eng, (Holds e i o t → Holds c i o t) ∧ outputsOf c i o = outputsOf e i o ∧ (env.outMap c i o = none ∨ ∃ vals, env.outMap c i o = some (vals, none) ∧
    ∀ J : Inst, e.insts[i]? = some J → ∃ I : Inst, c.insts[i]? = some I ∧ J.attrs = I.attrs.update vals)

theorem holds_back {e : Eng} {f : Inst → Inst}
    (hf : ∀ (I : Inst) ob', (f I).objs[o]? = some ob' → ∃ ob, I.objs[o]? = some ob ∧ ob'.task = ob.task) (h : Holds (e.modI i f) i o t) :
    Holds e i o t := by
  obtain ⟨ob', ho, ht⟩ := h
  unfold Eng.obj? at ho
  rw [modI_getElem?, if_pos rfl] at ho
  cases hI : e.insts[i]? with
  | none => rw [hI] at ho; cases ho
  | some I =>
    rw [hI] at ho
    obtain ⟨ob, h1, h2⟩ := hf I ob' ho
    exact ⟨ob, by unfold Eng.obj?; rw [hI]; exact h1, h2.symm.trans ht⟩

theorem MappedTo.then {e e' : Eng} (h : MappedTo env i o t e) (hb : Holds e' i o t → Holds e i o t) (ho : outputsOf e' i o = outputsOf e i o)
    (ha : ∀ J' : Inst, e'.insts[i]? = some J' → ∃ J : Inst, e.insts[i]? = some J ∧ J'.attrs = J.attrs) : MappedTo env i o t e' := by
  obtain ⟨c, h0, h1, h2⟩ := h
  refine ⟨c, fun h => h0 (hb h), h1.trans ho.symm, h2.imp_right fun ⟨vals, h3, h4⟩ => ⟨vals, h3, fun J' hJ' => ?_⟩⟩
  obtain ⟨J, hJ, hj⟩ := ha J' hJ'
  obtain ⟨I, hI, h5⟩ := h4 J hJ
  exact ⟨I, hI, hj.trans h5⟩

theorem modI_attrs {e : Eng} {f : Inst → Inst} (hf : ∀ I, (f I).attrs = I.attrs) (J' : Inst) (h : (e.modI i f).insts[i]? = some J') :
    ∃ J : Inst, e.insts[i]? = some J ∧ J'.attrs = J.attrs := by
  rw [modI_getElem?, if_pos rfl] at h
  cases hI : e.insts[i]? with
  | none => rw [hI] at h; cases h
  | some I => rw [hI] at h; cases h; exact ⟨I, rfl, hf I⟩

theorem MappedTo.setStatus {e : Eng} (h : MappedTo env i o t e) (s : TaskStatus) : MappedTo env i o t (e.setStatus i o s) :=
  h.then (holds_back fun I ob' h => by
      unfold Inst.setTaskStatus at h
      cases ho : I.objs[o]? with
      | none => rw [ho] at h; dsimp only at h; rw [ho] at h; cases h
      | some ob =>
        rw [ho] at h
        simp [ho] at h
        subst h
        exact ⟨ob, rfl, rfl⟩) (outputsOf_setStatus e s) (modI_attrs fun I => by unfold Inst.setTaskStatus; split <;> rfl)

theorem MappedTo.dwUpdate {e : Eng} (h : MappedTo env i o t e) : MappedTo env i o t (e.dwUpdate i o) :=
  h.then (holds_back fun I ob' h => by
      simp only [Inst.modO, List.getElem?_modify, if_true] at h
      cases ho : I.objs[o]? with
      | none => rw [ho] at h; cases h
      | some ob => rw [ho] at h; cases h; exact ⟨ob, rfl, rfl⟩) (outputsOf_modO (fun x => { x with dwIndex := some ((x.dwIndex.getD 0) + 1) }) (fun _ => rfl) _) (modI_attrs fun _ => rfl)

theorem outputMapper_mapped (e : Eng) (name : String) (h : (outputMapper env e i o name).2 = none) :
    MappedTo env i o t (outputMapper env e i o name).1 := by
  refine ⟨e, ?_⟩
  revert h
  unfold Eng.outputMapper
  split
  · rename_i heq
    exact fun _ => ⟨fun h => h, rfl, .inl heq⟩
  · rename_i vals err heq
    intro h
    cases err with
    | some m => cases h
    | none =>
      refine ⟨holds_back fun I ob' h => ⟨ob', h, rfl⟩, (outputsOf_mod (fun I => { I with attrs := I.attrs.update vals }) (fun _ => rfl) _).symm, .inr ⟨vals, heq, fun J hJ => ?_⟩⟩
      dsimp only at hJ
      rw [modI_getElem?, if_pos rfl] at hJ
      cases hI : e.insts[i]? with
      | none => rw [hI] at hJ; cases hJ
      | some I => rw [hI] at hJ; cases hJ; exact ⟨I, rfl, rfl⟩

theorem andThen_none {p : Eng × Option Err} {k : Eng → Eng × Option Err} (h : (andThen p k).2 = none) :
    p.2 = none ∧ andThen p k = k p.1 := by
  obtain ⟨e1, x⟩ := p
  cases x with
  | some err => cases h
  | none => exact ⟨rfl, rfl⟩

theorem assertion_none (e : Eng) (ob : Obj) (h : (assertion env e i ob).2 = none) : (assertion env e i ob).1 = e := by
  revert h
  unfold Eng.assertion
  split
  · split
    · exact (nomatch ·)
    · exact fun _ => rfl
  · exact fun _ => rfl

theorem afterDone_mapped (hn : td.accumulates = false) (e : Eng) (ob : Obj) (h : (afterDone env e i o ob td).2 = .ok true) :
    MappedTo env i o t (afterDone env e i o ob td).1 := by
  revert h
  unfold Eng.afterDone
  split
  · exact (nomatch ·)
  · intro h
    generalize hq : andThen (outputInterceptor env e i o ob td) _ = q at h
    have hq2 : q.2 = none := by
      obtain ⟨a, x⟩ := q
      cases x with
      | none => rfl
      | some err => cases h
    have h1 : (doneOrErr q).1 = q.1 := by obtain ⟨a, x⟩ := q; cases x <;> rfl
    rw [h1]
    rw [← hq] at hq2 ⊢
    obtain ⟨_, h3⟩ := andThen_none hq2
    rw [h3] at hq2 ⊢
    obtain ⟨h4, h5⟩ := andThen_none hq2
    rw [h5] at hq2 ⊢
    rw [assertion_none _ _ hq2]
    unfold Eng.storeOutputs at h4 ⊢
    rw [if_neg (by rw [hn]; exact (nomatch ·))] at h4 ⊢
    exact outputMapper_mapped _ _ h4

theorem evalWith_mapped (hn : td.accumulates = false) (p : Eng × Bool) (ob : Obj) (h : (evalWith env p i o ob td).2 = .ok true) :
    MappedTo env i o t (evalWith env p i o ob td).1 := by
  revert h
  unfold Eng.evalWith
  split
  · exact afterDone_mapped hn _ _
  · split
    · exact (nomatch ·)
    · split
      · exact afterDone_mapped hn _ _
      · generalize callActivity env p.1 i o ob td = q
        obtain ⟨e3, x, pk⟩ := q
        rcases x with err | _ | _
        · exact (nomatch ·)
        · exact (nomatch ·)
        · exact afterDone_mapped hn _ _

theorem evalOnce_mapped (hn : td.accumulates = false) {e : Eng} {d : Def} (hs : Stands i o t d e) (htd : d.task? t = some td)
    (h : (evalOnce env e i o).2 = .ok true) : MappedTo env i o t (evalOnce env e i o).1 := by
  revert h
  obtain ⟨ob, ho, rfl, h2⟩ := hs.taskDef
  unfold Eng.evalOnce
  rw [ho]
  dsimp only
  rw [h2, htd]
  dsimp only
  generalize applyInputMapper env e i o td.name = q
  obtain ⟨e1, x⟩ := q
  cases x with
  | some err => exact (nomatch ·)
  | none => exact evalWith_mapped hn _ _

theorem retryFrom_mapped (hn : td.accumulates = false) {d : Def} (htd : d.task? t = some td) (m : Nat) : ∀ {e : Eng}, Stands i o t d e →
    (retryFrom env m e i o).2 = .ok true → MappedTo env i o t (retryFrom env m e i o).1 := by
  induction m with
  | zero =>
    intro e hs h
    exact evalOnce_mapped hn (hs.evals (env := env) (s := none) (.setRetry e 0)) htd h
  | succ m ih =>
    intro e hs h
    have hs1 := hs.evals (env := env) (s := none) (.setRetry e (m + 1))
    have h2 := evalOnce_mapped (env := env) hn hs1 htd
    have hs2 := hs1.evals (.evalOnce (env := env) (e.setRetry i o (m + 1)))
    revert h
    unfold Eng.retryFrom
    generalize evalOnce env (e.setRetry i o (m + 1)) i o = q at h2 hs2
    obtain ⟨e1, x⟩ := q
    cases x with
    | ok b => exact h2
    | error err =>
      dsimp only
      split
      · exact ih hs2
      · exact (nomatch ·)

theorem evalActivity_mapped (hn : td.accumulates = false) {d : Def} (htd : d.task? t = some td) {e : Eng} (hs : Stands i o t d e)
    (h : (evalActivity env e i o).2 = .ok true) : MappedTo env i o t (evalActivity env e i o).1 := by
  have h2 := evalOnce_mapped (env := env) hn hs htd
  have hs2 := hs.evals (.evalOnce (env := env) e)
  revert h
  unfold Eng.evalActivity
  generalize evalOnce env e i o = q at h2 hs2
  obtain ⟨e1, x⟩ := q
  cases x with
  | ok b => exact h2
  | error err =>
    dsimp only
    split
    · have hs3 := hs2.evals (env := env) (s := none) (.getRetry e1)
      generalize getRetry env e1 i o = q at hs3
      obtain ⟨e2, y⟩ := q
      cases y with
      | error rerr => exact (nomatch ·)
      | ok c =>
        dsimp only
        split
        · exact retryFrom_mapped hn htd _ hs3
        · exact (nomatch ·)
    · exact (nomatch ·)

theorem evalKind_mapped (hn : td.accumulates = false) {d : Def} (htd : d.task? t = some td) {e : Eng} (hs : Stands i o t d e)
    (h : (evalKind env e i o td).2 = .res .again ∨ (evalKind env e i o td).2 = .res .done ∧ td.kind ≠ .iterator) :
    MappedTo env i o t (evalKind env e i o td).1 := by
  revert h
  unfold Eng.evalKind
  cases hk : td.kind with
  | basic =>
    have h1 := evalActivity_mapped (env := env) hn htd hs
    dsimp only
    unfold Eng.evalBasic
    generalize evalActivity env e i o = q at h1
    obtain ⟨e1, x⟩ := q
    rcases x with err | _ | _
    · rintro (h | ⟨h, _⟩) <;> cases h
    · rintro (h | ⟨h, _⟩) <;> cases h
    · exact fun _ => h1 rfl
  | iterator =>
    dsimp only
    unfold Eng.evalIter
    split
    · rintro (h | ⟨h, _⟩) <;> cases h
    · rintro (h | ⟨h, h2⟩)
      · cases h
      · exact absurd rfl h2
    · rename_i it hit
      dsimp only
      split
      · rintro (h | ⟨h, h2⟩)
        · cases h
        · exact absurd rfl h2
      · split
        · rintro (h | ⟨h, _⟩) <;> cases h
        · rename_i v hv
          have hs1 : Stands i o t d (e.modI i (fun I => I.modO o (fun x =>
            { x with iter := some it.next.1, iteration := some (it.next.1.key, v, it.next.1.current) }))) := by
            obtain ⟨I, ob, hI, ho, ht, hd⟩ := hs
            exact ⟨_, { ob with iter := some it.next.1, iteration := some (it.next.1.key, v, it.next.1.current) }, modI_self hI _, by simp [Inst.modO, ho], ht, hd⟩
          have h1 := evalActivity_mapped (env := env) hn htd hs1
          generalize evalActivity env _ i o = q at h1
          obtain ⟨e1, x⟩ := q
          rcases x with err | _ | _
          · rintro (h | ⟨h, _⟩) <;> cases h
          · rintro (h | ⟨h, _⟩) <;> cases h
          · exact fun _ => h1 rfl
  | doWhile =>
    dsimp only
    unfold Eng.evalDoWhile
    have h1 := evalActivity_mapped (env := env) hn htd (hs.evals (env := env) (s := none) (.dwInit e))
    generalize evalActivity env (e.dwInit i o) i o = q at h1
    obtain ⟨e1, x⟩ := q
    rcases x with err | _ | _
    · rintro (h | ⟨h, _⟩) <;> cases h
    · rintro (h | ⟨h, _⟩) <;> cases h
    · exact fun _ => (h1 rfl).dwUpdate

theorem postOnce_mapped (hn : td.accumulates = false) (hl : ¬Lingers env td i o) {e : Eng} {d : Def} (hs : Stands i o t d e)
    (htd : d.task? t = some td) (h : (postOnce env e i o).2 = .ok ()) : MappedTo env i o t (postOnce env e i o).1 := by
  revert h
  obtain ⟨ob, ho, rfl, h2⟩ := hs.taskDef
  unfold Eng.postOnce
  rw [ho]
  dsimp only
  rw [h2, htd]
  dsimp only
  have h3 : ∀ b, (callPost env (e.modI i (fun I => { I with trace := .postAct o ob.task :: I.trace })) i o td).2 = .ok b → b = true := by
    unfold Eng.callPost
    split
    · rename_i ha
      dsimp only
      split
      · exact fun b hb => by cases hb; rfl
      · rename_i hw
        exact absurd ⟨ha, _, hw⟩ hl
      · exact fun b hb => nomatch hb
      · exact fun b hb => nomatch hb
    · exact fun b hb => by cases hb; rfl
  generalize callPost env _ i o td = q at h3
  obtain ⟨e1, x⟩ := q
  cases x with
  | error err => exact (nomatch ·)
  | ok b =>
    have hb := h3 b rfl
    subst hb
    dsimp only
    split
    · exact (nomatch ·)
    · rw [if_pos rfl]
      unfold Eng.postStore
      generalize hq : andThen (outputInterceptor env e1 i o ob td) _ = q
      obtain ⟨e2, y⟩ := q
      cases y with
      | some err => exact (nomatch ·)
      | none =>
        intro _
        show MappedTo env i o ob.task ((e2, (none : Option Err)).1)
        have hq2 : ((e2, (none : Option Err))).2 = none := rfl
        rw [← hq] at hq2 ⊢
        obtain ⟨_, h3⟩ := andThen_none hq2
        rw [h3] at hq2 ⊢
        obtain ⟨h4, h5⟩ := andThen_none hq2
        rw [h5] at hq2 ⊢
        rw [assertion_none _ _ hq2]
        rw [if_neg (by rw [hn]; exact (nomatch ·))] at h4 ⊢
        exact outputMapper_mapped _ _ h4

theorem postKind_mapped (hn : td.accumulates = false) (hl : ¬Lingers env td i o) {d : Def} (htd : d.task? t = some td) {e : Eng}
    (hs : Stands i o t d e) (h : (postKind env e i o td).2 = .res .again ∨ (postKind env e i o td).2 = .res .done) :
    MappedTo env i o t (postKind env e i o td).1 := by
  revert h
  unfold Eng.postKind
  cases hk : td.kind with
  | basic =>
    have h1 := postOnce_mapped (env := env) hn hl hs htd
    have hs1 := hs.evals (s := none) (.postOnce (env := env) e)
    dsimp only
    unfold Eng.postBasic
    generalize postOnce env e i o = q at h1 hs1
    obtain ⟨e1, x⟩ := q
    cases x with
    | ok u => exact fun _ => h1 rfl
    | error err =>
      dsimp only
      split
      · have hs3 := hs1.evals (env := env) (s := none) (.getRetry e1)
        generalize getRetry env e1 i o = q at hs3
        obtain ⟨e2, y⟩ := q
        cases y with
        | error rerr => rintro (h | h) <;> cases h
        | ok n =>
          dsimp only
          split
          · have h5 := retryFrom_mapped (env := env) hn htd (n.toNat - 1) hs3
            generalize retryFrom env (n.toNat - 1) e2 i o = q at h5
            obtain ⟨e3, z⟩ := q
            rcases z with err | _ | _
            · rintro (h | h) <;> cases h
            · rintro (h | h) <;> cases h
            · exact fun _ => h5 rfl
          · rintro (h | h) <;> cases h
      · rintro (h | h) <;> cases h
  | iterator =>
    have h1 := postOnce_mapped (env := env) hn hl hs htd
    dsimp only
    unfold Eng.postIter
    generalize postOnce env e i o = q at h1
    obtain ⟨e1, x⟩ := q
    cases x with
    | error err => rintro (h | h) <;> cases h
    | ok u =>
      dsimp only
      split
      · exact fun _ => (h1 rfl).setStatus _
      · exact fun _ => (h1 rfl).setStatus _
  | doWhile =>
    have h1 := postOnce_mapped (env := env) hn hl (hs.evals (env := env) (s := none) (.dwInit e)) htd
    dsimp only
    unfold Eng.postDoWhile
    generalize postOnce env (e.dwInit i o) i o = q at h1
    obtain ⟨e1, x⟩ := q
    cases x with
    | error err => rintro (h | h) <;> cases h
    | ok u => exact fun _ => ((h1 rfl).setStatus _).dwUpdate

theorem evaluates_mapped {e e' : Eng} {r : EvalOut} (hev : Evaluates env e i o t e' r) (htd : e.taskDef? i t = some td)
    (hn : ¬Accumulating td) (hf : FinishesIteration env td e i o r) : ∃ c, Mapped env i o t c e' := by
  have hn' : td.accumulates = false := by
    cases h : td.accumulates with
    | false => rfl
    | true => exact absurd ((accumulates_iff td).1 h) hn
  obtain ⟨ob, td1, ho, ht, htd1⟩ := evaluates_obj hev
  rw [htd] at htd1; cases htd1
  subst ht
  obtain ⟨I0, hI0, hob⟩ := obj?_some ho
  obtain ⟨w, hnx, hwi, hwo, hwait, hnew⟩ := evaluates_eval hev ho htd
  have hst : Stands i o ob.task I0.defn (afterPop env e w) := ⟨I0, ob, hI0, hob, rfl, rfl⟩
  have htd' : I0.defn.task? ob.task = some td := by
    unfold Eng.taskDef? at htd; rw [hI0] at htd; exact htd
  obtain ⟨ob', ho', h1, h2⟩ := hf
  rw [ho] at ho'; cases ho'
  have hm : MappedTo env i o ob.task e' := by
    by_cases hs : ob.status = .waiting
    · have h := postKind_mapped (env := env) hn' (h1 hs).2 htd' hst
      rw [← hwait hs] at h
      exact h (h1 hs).1
    · have h := evalKind_mapped (env := env) hn' htd' hst
      rw [← hnew hs] at h
      exact h (h2 hs)
  obtain ⟨hh, J, hJ⟩ : Holds e' i o ob.task ∧ ∃ J, e'.insts[i]? = some J := by
    obtain ⟨⟨w', a, rfl, rfl, b⟩, c⟩ := hev
    obtain ⟨e1, h3, h4⟩ := outcome_evals b
    have hh : Holds e1 w'.inst w'.obj ob.task := Holds.evals (e := afterPop env e w') ⟨ob, ho, rfl⟩ h3
    obtain ⟨J, hJ, _⟩ := h3.obj.2.1 I0 hI0
    rcases h4 with rfl | ⟨st, rfl⟩
    · exact ⟨hh, J, hJ⟩
    · refine ⟨?_, _, modI_self hJ _⟩
      obtain ⟨ob1, h5, h6⟩ := hh
      have h7 : J.objs[w'.obj]? = some ob1 := by unfold Eng.obj? at h5; rw [hJ] at h5; exact h5
      refine ⟨{ ob1 with status := st }, ?_, h6⟩
      unfold Eng.obj? Eng.setStatus
      rw [modI_self hJ]
      show (J.setTaskStatus w'.obj st).objs[w'.obj]? = _
      unfold Inst.setTaskStatus
      rw [h7]
      simp [h7]
  obtain ⟨c, hc, h3, h4⟩ := hm
  refine ⟨c, hc hh, h3, h4.imp_right fun ⟨vals, h5, h6⟩ => ⟨vals, h5, fun k v => ?_⟩⟩
  obtain ⟨I, hI, h7⟩ := h6 J hJ
  unfold Spec.attrAt
  rw [hJ, hI]
  show (_ → _ → AMap.get? J.attrs k = some v) ∧ (_ → AMap.get? J.attrs k = AMap.get? I.attrs k)
  rw [h7]
  refine ⟨fun hnd hv => ?_, fun hv => AMap.get?_update_none _ _ hv _⟩
  rw [AMap.get?_update _ _ hnd, hv]
  rfl

end

end Eng
end Flow
