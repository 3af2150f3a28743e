import Verif.Proofs.Results
import Verif.Props.Errors
import Verif.Props.Loops

/-!
Results of tasks and flows: error objects (C46), explicit return (C12), the outcome of a subflow (C25) and the inputs of a
flow (C27).
-/

namespace Flow
open Spec

variable {env : Env} {i o : Nat}

/-! ### C46 -/

/-- C46, tasks with an error link: after the failure the error object of the task describes its error. -/
theorem C46_with_error_link {e e' : Eng} {t : TaskRef} {err : Err} {I : Inst}
    (hI : e.insts[i]? = some I) (h : Evaluates env e i o t e' (.err err)) (hl : hasErrorLink I.defn t) :
    ∃ J v, (e.step env).insts[i]? = some J ∧ J.attrs.get? ("_E." ++ t.id) = some v ∧ Describes v t.id err := by
  obtain ⟨⟨name, hstep⟩, hstk, hoth, hin⟩ := Eng.evaluates_step h
  obtain ⟨I', ob, hI', hob, hobt, hd, _⟩ := hin I hI
  rw [← hd] at hl
  obtain ⟨rows, hrows, het⟩ := errorTask_some (o := o) hl
  have hJ : (e.step env).insts[i]? = some ((I'.errorTask o t).1.setValue ("_E." ++ t.id) (errorObj t.id err)) := by
    rw [hstep]
    simp only [Eng.handleResult, Eng.taskError, hI', het]
    exact Eng.modI_self hI' _
  exact ⟨_, _, hJ, AMap.get?_set_self _ _ _, errorObj_describes _ _⟩

/-- C46, tasks without error link of a flow that is not handling an error: the error object of the task and the flow-wide
error object are the same and describe the error. -/
theorem C46_without_error_link {e e' : Eng} {t : TaskRef} {err : Err} {I : Inst} (hr : Reachable env e)
    (hI : e.insts[i]? = some I) (h : Evaluates env e i o t e' (.err err)) (hl : ¬ hasErrorLink I.defn t) (hh : I.handling = false) :
    ∃ J v, (e.step env).insts[i]? = some J ∧ J.attrs.get? ("_E." ++ t.id) = some v ∧ J.attrs.get? "_E" = some v ∧
      Describes v t.id err := by
  cases hg : I.defn.eh with
  | some g =>
    obtain ⟨J, es, h1, _, _, _, _, _, h2, h3, _⟩ := C14_handler_started hI h hl hg hh
    exact ⟨J, _, h1, h3, h2, errorObj_describes _ _⟩
  | none =>
    obtain ⟨⟨name, hstep⟩, hstk, hoth, hin⟩ := Eng.evaluates_step h
    obtain ⟨I', ob, hI', hob, hobt, hd, hhd, hst, hhost, _⟩ := hin I hI
    rw [← hd] at hl hg
    have hc := Calm.errorTask I' o t
    rw [errorTask_none hl] at hc
    let I2 := (((I'.setTaskStatus o .failed).findLinks (I'.defn.toLinks t)).setValue "_E" (errorObj t.id err)).setValue ("_E." ++ t.id) (errorObj t.id err)
    let e2 := (e'.modI i (fun _ => (I'.setTaskStatus o .failed).findLinks (I'.defn.toLinks t))).appendErrorData i t.id err
    have hI2 : e2.insts[i]? = some I2 := Eng.appendErrorData_self (Eng.modI_self hI' _) t.id err
    have hs2 : e.step env = e2.globalError i err := by
      rw [hstep]; exact Eng.taskError_noLink (o := o) hI' hl (hhd.trans hh) err
    have hget := setErr_get ((I'.setTaskStatus o .failed).findLinks (I'.defn.toLinks t)) t.id (errorObj t.id err)
    have hnh : I2.handling = false := hc.handling.trans (hhd.trans hh)
    have hg2 : I2.defn.eh = none := (congrArg Def.eh hc.defn).trans hg
    by_cases hi0 : i = 0
    · subst hi0
      obtain ⟨J, h1, h2, h3, h4, _⟩ := Eng.globalError_top hI2 hnh hg2 err
      rw [← hs2] at h1
      exact ⟨J, _, h1, by rw [h4]; exact hget.2, by rw [h4]; exact hget.1, errorObj_describes _ _⟩
    · obtain ⟨hi, ho, hho, hlt2, H, hob2, hH, hHo, _⟩ := (Eng.engOK_reachable hr).hosts i I hI hi0
      have hne : hi ≠ i := by omega
      let I3 := ({ I2 with handling := true }).setFlowStatus .failed
      let e3 := (e2.modI i (fun J => { J with handling := true })).modI i (fun J => J.setFlowStatus .failed)
      have h3 : e2.globalError i err = e3.failHost i err := by
        unfold Eng.globalError
        rw [hI2]
        dsimp only
        rw [hnh, hg2, if_neg hi0]
        rfl
      have hI3 : e3.insts[i]? = some I3 := Eng.modI_self (Eng.modI_self hI2 _) _
      have hH3 : e3.insts[hi]? = some H := by
        show ((((e'.modI i _).modI i _).modI i _).modI i _).insts[hi]? = some H
        rw [Eng.modI_ne (Ne.symm hne), Eng.modI_ne (Ne.symm hne), Eng.modI_ne (Ne.symm hne), Eng.modI_ne (Ne.symm hne),
          hoth hi hne (List.getElem?_eq_some_iff.1 hH).1]
        exact hH
      have h4 := (Eng.failHost_sub hI3 err ((hc.host.trans hhost).trans hho) hne hH3 hHo).1
      rw [← h3, ← hs2] at h4
      exact ⟨I3, _, h4, hget.2, hget.1, errorObj_describes _ _⟩

/-- C46, a task of the error handler of the top-level flow: both error objects describe the error. -/
theorem C46_in_handler_partial {e e' : Eng} {t : TaskRef} {err : Err} {I : Inst}
    (hI : e.insts[0]? = some I) (h : Evaluates env e 0 o t e' (.err err)) (hl : ¬ hasErrorLink I.defn t) (hh : I.handling = true) :
    ∃ J v, (e.step env).insts[0]? = some J ∧ J.attrs.get? ("_E." ++ t.id) = some v ∧ J.attrs.get? "_E" = some v ∧
      Describes v t.id err := by
  obtain ⟨⟨name, hstep⟩, hstk, hoth, hin⟩ := Eng.evaluates_step h
  obtain ⟨I', ob, hI', hob, hobt, hd, hhd, hst, hhost, _⟩ := hin I hI
  rw [← hd] at hl
  have h1 : ((e'.modI 0 (fun _ => (I'.setTaskStatus o .failed).findLinks (I'.defn.toLinks t))).modI 0
      (fun J => J.setFlowStatus .failed)).insts[0]? = some (((I'.setTaskStatus o .failed).findLinks (I'.defn.toLinks t)).setFlowStatus .failed) :=
    Eng.modI_self (Eng.modI_self hI' _) _
  have h2 := Eng.appendErrorData_self h1 t.id err
  have hs1 : e.step env = ((e'.modI 0 (fun _ => (I'.setTaskStatus o .failed).findLinks (I'.defn.toLinks t))).modI 0
      (fun J => J.setFlowStatus .failed)).appendErrorData 0 t.id err := by
    rw [hstep]
    simp only [Eng.handleResult, Eng.taskError, hI', errorTask_none hl, hhd.trans hh, if_true]
  rw [← hs1] at h2
  exact ⟨_, _, h2, (setErr_get _ _ _).2, (setErr_get _ _ _).1, errorObj_describes _ _⟩

/-- C46: an error reported by an activity speaks about the task whose activity was called, whatever name the activity put
into it. -/
theorem C46_names_the_task (hs : Steady env i o) {e : Eng} {ob : Obj} {td : TaskDef} (ho : e.obj? i o = some ob)
    (htd : e.taskDef? i ob.task = some td) (hact : td.act.sub? = none) {er : Err}
    (hres : (env.act (e.callState env i o ob td) i o).res = .err er) :
    ∃ err, (e.evalOnce env i o).2 = .error err ∧ err.msg = er.msg ∧
      (source ob.task.id err = ob.task.id ∨ source ob.task.id err = td.name ∨ ∃ n ty m, er = .eval n ty m) ∧
      ∀ m c d a r, er = .act m c d a r → ∃ a', err = .act m c d a' r := by
  rw [Eng.evalOnce_call hs ho htd hact, hres]
  refine ⟨er.setActivity td.name, rfl, ?_, ?_, ?_⟩
  · cases er <;> rfl
  · cases er with
    | act m c d a r =>
      simp only [Err.setActivity, source]
      by_cases hn : td.name = ""
      · exact Or.inl (by simp [hn])
      · exact Or.inr (Or.inl (by simp [hn]))
    | eval n ty m => exact Or.inr (Or.inr ⟨_, _, _, rfl⟩)
    | linkExpr m => exact Or.inl rfl
    | plain m => exact Or.inl rfl
  · rintro m c d a r rfl
    exact ⟨_, rfl⟩

-- non-trivial instances: an activity error with code and data, with and without error link
def failCode : Env := tableEnv (fun t => if t = "A" then { res := .err (.act "boom" "42" (.int 7) "other" false) } else {}) (fun _ => .ok true)

example : ∃ e', Evaluates failCode (Eng.init failCode "1" "u" guarded []) 0 0 ⟨false, "A"⟩ e' (.err (.act "boom" "42" (.int 7) "A" false)) :=
  ⟨_, ⟨⟨⟨1, 0, 0⟩, rfl, rfl, rfl, rfl⟩, rfl⟩⟩
example : ∃ e', Evaluates failCode (Eng.init failCode "1" "u" chain []) 0 0 ⟨false, "A"⟩ e' (.err (.act "boom" "42" (.int 7) "A" false)) :=
  ⟨_, ⟨⟨⟨1, 0, 0⟩, rfl, rfl, rfl, rfl⟩, rfl⟩⟩
example : ¬ hasErrorLink chain ⟨false, "A"⟩ := by
  rintro ⟨l, h1, h2⟩
  simp [chain, Def.toLinks, Def.graph, Graph.toLinks, deps] at h1
  subst h1; cases h2
example : ((Eng.run failCode (Eng.init failCode "1" "u" chain []) 1).insts[0]?).bind (fun J => (J.attrs.get? "_E").bind (field · "code")) =
    some (.str "42") := rfl

/-- An input mapper of A that fails. -/
def badInput : Env := { plainEnv with inMap := fun e i o => if taskOf e i o = "A" then some (.error "no such key") else none }

/-- C46, the flow-wide error object: for a task with an error link it is not stored in every case. Here the input mapper of A
fails, the task handling the error runs, the flow completes, and there is no flow-wide error object although the flow was
not handling an error. -/
theorem C46_negation : ∃ e', Evaluates badInput (Eng.init badInput "1" "u" guarded []) 0 0 ⟨false, "A"⟩ e' (.err (.eval "A" "mapper" "no such key")) ∧
    ((Eng.run badInput (Eng.init badInput "1" "u" guarded []) 1).insts[0]?).map (·.handling) = some false ∧
    ((Eng.run badInput (Eng.init badInput "1" "u" guarded []) 1).insts[0]?).map (fun J => (J.attrs.get? "_E").isSome) = some false ∧
    ((Eng.run badInput (Eng.init badInput "1" "u" guarded []) 1).insts[0]?).map (fun J => (J.attrs.get? "_E.A").isSome) = some true ∧
    flowStatus (Eng.run badInput (Eng.init badInput "1" "u" guarded []) 30) 0 = some .completed :=
  ⟨_, ⟨⟨⟨1, 0, 0⟩, rfl, rfl, rfl, rfl⟩, rfl⟩, rfl, by decide, by decide, by decide⟩

/-! ### C12 -/

/-- The activity of a task without loop and retry calls `Return(d, er)`. When the task finishes, its flow is Completed with
exactly this data and error, none of its successors is entered, and if the flow is a subflow, the task that started it gets
the data as outputs and is scheduled. `c` is the state in which the activity is called.

Partial: it is assumed that no link expression of the task fails (`C12_negation`), and the returned error of a subflow does
not reach the task that started it (`C12_negation_subflow`). -/
theorem C12_return_partial {e e' : Eng} {t : TaskRef} (hr : Reachable env e) (h : Starts env e i o t e' (.res .done)) {I : Inst} {td : TaskDef}
    (hI : e.insts[i]? = some I) (htd : e.taskDef? i t = some td) (hkind : td.kind = .basic) (hretry : td.retry = false)
    (hact : td.act.sub? = none) (hs : Steady env i o) :
    ∃ c, CalledIn i o t e c ∧ ∀ d er, (env.act c i o).ret = some (d, er) → (env.act c i o).reply = none →
      ¬ exprFails (I.defn.toLinks t) (env.link e' i) →
      EndedWith (e.step env) i d er ∧ (e.step env).stack = [.release t] ∧ (e.step env).cur = i ∧
      (i ≠ 0 → ∃ hi ho hob, I.host = some (hi, ho) ∧ (e.step env).obj? hi ho = some hob ∧ hob.outputs = d ∧
        ∃ w ∈ (e.step env).queue, w.inst = hi ∧ w.obj = ho) := by
  obtain ⟨h, hnw⟩ := h
  cases ho : e.obj? i o with
  | none => have := h.task; rw [ho] at this; cases this
  | some ob =>
  have ht : ob.task = t := by have := h.task; rw [ho] at this; cases this; rfl
  subst ht
  obtain ⟨w, hn, hwi, hwo, _, hev⟩ := Eng.evaluates_eval h ho htd
  have hev := hev (hnw ob ho)
  let p := afterPop env e w
  have hop : p.obj? i o = some ob := ho
  have hdp : p.taskDef? i ob.task = some td := htd
  have hpI : p.insts[i]? = some I := hI
  have h1 : p.evalKind env i o td = p.evalBasic env i o := by unfold Eng.evalKind; rw [hkind]
  rw [h1] at hev
  unfold Eng.evalBasic at hev
  rw [Eng.evalActivity_noRetry hop hdp hretry] at hev
  have hcall := Eng.evalOnce_call hs hop hdp hact
  have hm := Eng.LocalE.applyInputMapper (k := true) (env := env) (i := i) (o := o) p td.name
  obtain ⟨I1, hI1, hl1⟩ := hm.inst hpI
  have hIc : (p.callState env i o ob td).insts[i]? = some { I1 with trace := .evalAct o ob.task :: I1.trace } := Eng.called_inst hI1
  refine ⟨p.callState env i o ob td, ⟨?_, ?_, ?_, ?_⟩, ?_⟩
  · unfold calls
    rw [hIc, hI]
    dsimp only
    rw [List.filter_cons, if_pos (show isCall (.evalAct o ob.task) = true from rfl), hl1.trace]
  · intro j
    by_cases hj : j = i
    · subst hj; unfold flowStatus; rw [hIc, hI]; simp [hl1.status]
    · unfold flowStatus Eng.callState Eng.called
      rw [Eng.modI_ne (Ne.symm hj), hm.other hj]; rfl
  · unfold Eng.callState Eng.called
    rw [Eng.modI_length, hm.length]; rfl
  · intro j hj
    unfold Eng.callState Eng.called
    rw [Eng.modI_ne (Ne.symm hj), hm.other hj]; rfl
  · intro d er hret hrep hex
    obtain ⟨I2, hI2, hf2, hd2, he2⟩ := Eng.applyActOut_return (o := o) hIc hret hrep
    -- the evaluation ended with done
    have hdone : (p.evalOnce env i o) = (e', .ok true) := by
      revert hev
      generalize p.evalOnce env i o = q
      obtain ⟨e1, r⟩ := q
      cases r with
      | error err => intro hev; cases hev
      | ok b => cases b <;> intro hev <;> cases hev; rfl
    have hres : (env.act (p.callState env i o ob td) i o).res = .done := by
      rw [hcall] at hdone
      revert hdone
      cases (env.act (p.callState env i o ob td) i o).res <;> intro hdone <;> first | rfl | cases hdone
    rw [hcall, hres] at hdone
    dsimp only at hdone
    have hl3 := Eng.LocalE.afterDone (k := true) (env := env) (i := i) (o := o)
      ((p.callState env i o ob td).applyActOut i o (env.act (p.callState env i o ob td) i o)) ob td
    rw [hdone] at hl3
    obtain ⟨I3, hI3, hl3'⟩ := hl3.inst hI2
    obtain ⟨⟨name, hstep⟩, hstk, hoth, hin⟩ := Eng.evaluates_step h
    obtain ⟨I', ob', hI', hob', _, hdf, hhd, hst, hhost, _⟩ := hin I hI
    dsimp only at hI3
    rw [hI3] at hI'; cases hI'
    obtain ⟨I4, hcalm, htd4⟩ := Eng.taskDone_forced (o := o) (env := env) hI3 (hl3'.force.trans hf2) (by rw [hdf]; exact hex)
    have hs4 : e.step env = { (e'.modI i (fun _ => I4)).complete i with cur := i, stack := [.release ob.task] } := by
      rw [hstep]; exact htd4
    have hI4 : (e'.modI i (fun _ => I4)).insts[i]? = some I4 := Eng.modI_self hI3 _
    have hrd : I4.returnData = d := by rw [hcalm.returnData, hl3'.returnData, hd2]
    have hre : I4.returnError = er := by rw [hcalm.returnError, hl3'.returnError, he2]
    by_cases hi0 : i = 0
    · subst hi0
      refine ⟨⟨I4.setFlowStatus .completed, ?_, rfl, hrd, hre⟩, by rw [hs4], by rw [hs4], fun hc => absurd rfl hc⟩
      rw [hs4]
      show ((e'.modI 0 (fun _ => I4)).complete 0).insts[0]? = _
      rw [Eng.complete_top hI4]
      exact Eng.modI_self hI4 _
    · obtain ⟨hi, hho, hhst, hlt2, H, hob2, hH, hHo, _⟩ := (Eng.engOK_reachable hr).hosts i I hI hi0
      have hne : hi ≠ i := by omega
      have hH4 : (e'.modI i (fun _ => I4)).insts[hi]? = some H := by
        rw [Eng.modI_ne (Ne.symm hne), hoth hi hne (List.getElem?_eq_some_iff.1 hH).1]; exact hH
      obtain ⟨g1, g2, g3⟩ := Eng.complete_sub hI4 hi0 ((hcalm.host.trans hhost).trans hhst) hne hH4 hHo
      refine ⟨⟨I4.setFlowStatus .completed, ?_, rfl, hrd, hre⟩, by rw [hs4], by rw [hs4], fun _ => ⟨hi, hho, { hob2 with outputs := I4.returnData, returnError := none }, hhst, ?_, hrd, ?_⟩⟩
      · rw [hs4]; exact g1
      · rw [hs4]; exact g2
      · refine ⟨⟨(e'.modI i (fun _ => I4)).wiCounter + 1, hi, hho⟩, ?_, rfl, rfl⟩
        rw [hs4]
        show _ ∈ ((e'.modI i (fun _ => I4)).complete i).queue
        rw [g3]
        exact List.mem_append_right _ (List.mem_singleton.2 rfl)

/-- A flow of two tasks: R returns, B would follow; and the same flow as a subflow. -/
def returning (ty : LinkType) : Def := { name := "r", main := ⟨[tk "R", tk "B"], [⟨0, "R", "B", ty, ""⟩]⟩ }
def hostFlow : Def := { name := "f", main := ⟨[{ tk "A" with act := .subflow "r" }], []⟩ }
/-- R calls `Return` with data and the given error; the link expression has the given outcome. -/
def returnEnv (er : Option Err) (x : ExprOut) : Env :=
  { tableEnv (fun t => if t = "R" then { ret := some (some [("x", .int 1)], er) } else {}) (fun _ => x) with
    defs := fun u => if u = "r" then .ok (some (returning .dependency)) else .ok none }

-- non-trivial instance: the top-level flow returns; B is not executed
example : ∃ e', Starts (returnEnv none (.ok true)) (Eng.init (returnEnv none (.ok true)) "1" "u" (returning .dependency) []) 0 0 ⟨false, "R"⟩ e' (.res .done) :=
  ⟨_, ⟨⟨⟨1, 0, 0⟩, rfl, rfl, rfl, rfl⟩, rfl⟩, fun ob h => by cases h; decide⟩
example : Steady (returnEnv none (.ok true)) 0 0 := ⟨(fun _ _ h => nomatch h), fun _ => rfl, fun _ => rfl⟩
example : flowStatus (Eng.run (returnEnv none (.ok true)) (Eng.init (returnEnv none (.ok true)) "1" "u" (returning .dependency) []) 20) 0 = some .completed ∧
    (calls (Eng.run (returnEnv none (.ok true)) (Eng.init (returnEnv none (.ok true)) "1" "u" (returning .dependency) []) 20) 0).length = 1 := by decide
-- and as a subflow, with the items taken in order
example : flowStatus (Eng.run (returnEnv none (.ok true)) (Eng.init (returnEnv none (.ok true)) "1" "u" hostFlow []) 20) 1 = some .completed ∧
    flowStatus (Eng.run (returnEnv none (.ok true)) (Eng.init (returnEnv none (.ok true)) "1" "u" hostFlow []) 20) 0 = some .completed := by decide

/-- C12 does not hold if a link expression of the returning task fails: the flow is Failed although its task has called
`Return`. -/
theorem C12_negation : flowStatus (Eng.run (returnEnv none (.err "bad")) (Eng.init (returnEnv none (.err "bad")) "1" "u" (returning .expression) []) 20) 0 = some .failed := by
  decide

/-- C12 does not hold for the error of a subflow: the subflow returns with an error, but the task that started it succeeds
and the parent flow completes without an error. -/
theorem C12_negation_subflow : ((Eng.run (returnEnv (some (.plain "bad")) (.ok true))
      (Eng.init (returnEnv (some (.plain "bad")) (.ok true)) "1" "u" hostFlow []) 20).insts[1]?).map (fun J => J.returnError.map Err.msg) = some (some "bad") ∧
    ((Eng.run (returnEnv (some (.plain "bad")) (.ok true))
      (Eng.init (returnEnv (some (.plain "bad")) (.ok true)) "1" "u" hostFlow []) 20).insts[0]?).map
        (fun J => (J.status, J.returnError.map Err.msg, J.trace.filter (fun ev => ev = .taskStatus 0 ⟨false, "A"⟩ .failed))) =
      some (.completed, none, []) := by
  decide

/-! ### C25 -/

/-- C25, success: a step in which a subflow becomes Completed makes the return data of the subflow the outputs of the task
that started it, clears the error of this task, and schedules it. -/
theorem C25_completed {e : Eng} (hr : Reachable env e) {j : Nat} {I : Inst} (hj0 : j ≠ 0) (hI : e.insts[j]? = some I)
    (hs : I.status ≠ .completed) (h : flowStatus (e.step env) j = some .completed) :
    ∃ J hi ho hob, (e.step env).insts[j]? = some J ∧ J.host = some (hi, ho) ∧ (e.step env).obj? hi ho = some hob ∧
      hob.outputs = J.returnData ∧ hob.returnError = none ∧ ∃ w ∈ (e.step env).queue, w.inst = hi ∧ w.obj = ho :=
  Eng.step_handed hr hj0 hI hs h

/-- C25, failure: a task of a subflow fails without error link, and the subflow has no error handler or is already handling
an error. Then the subflow is Failed, and the task that started it has the error and is scheduled. -/
theorem C25_failed {e e' : Eng} {t : TaskRef} {err : Err} {I : Inst} (hr : Reachable env e) (hi0 : i ≠ 0)
    (hI : e.insts[i]? = some I) (h : Evaluates env e i o t e' (.err err)) (hl : ¬ hasErrorLink I.defn t)
    (hh : I.handling = true ∨ I.defn.eh = none) :
    flowStatus (e.step env) i = some .failed ∧ ∃ hi ho hob, I.host = some (hi, ho) ∧ (e.step env).obj? hi ho = some hob ∧
      hob.returnError = some err ∧ ∃ w ∈ (e.step env).queue, w.inst = hi ∧ w.obj = ho := by
  cases hx : I.handling with
  | true =>
    obtain ⟨h1, _, h3⟩ := C15_failure_in_handler_partial hr hI h hl hx
    exact ⟨h1, h3 hi0⟩
  | false =>
    have hg : I.defn.eh = none := by rcases hh with hh | hh; rw [hx] at hh; cases hh; exact hh
    obtain ⟨⟨name, hstep⟩, hstk, hoth, hin⟩ := Eng.evaluates_step h
    obtain ⟨I', ob, hI', hob, hobt, hd, hhd, hst, hhost, _⟩ := hin I hI
    rw [← hd] at hl hg
    have hc := Calm.errorTask I' o t
    rw [errorTask_none hl] at hc
    let I2 := (((I'.setTaskStatus o .failed).findLinks (I'.defn.toLinks t)).setValue "_E" (errorObj t.id err)).setValue ("_E." ++ t.id) (errorObj t.id err)
    let e2 := (e'.modI i (fun _ => (I'.setTaskStatus o .failed).findLinks (I'.defn.toLinks t))).appendErrorData i t.id err
    have hI2 : e2.insts[i]? = some I2 := Eng.appendErrorData_self (Eng.modI_self hI' _) t.id err
    have hs2 : e.step env = e2.globalError i err := by
      rw [hstep]; exact Eng.taskError_noLink (o := o) hI' hl (hhd.trans hx) err
    have hnh : I2.handling = false := hc.handling.trans (hhd.trans hx)
    have hg2 : I2.defn.eh = none := (congrArg Def.eh hc.defn).trans hg
    obtain ⟨hi, ho, hho, hlt2, H, hob2, hH, hHo, _⟩ := (Eng.engOK_reachable hr).hosts i I hI hi0
    have hne : hi ≠ i := by omega
    let I3 := ({ I2 with handling := true }).setFlowStatus .failed
    let e3 := (e2.modI i (fun J => { J with handling := true })).modI i (fun J => J.setFlowStatus .failed)
    have h3 : e2.globalError i err = e3.failHost i err := by
      unfold Eng.globalError
      rw [hI2]
      dsimp only
      rw [hnh, hg2, if_neg hi0]
      rfl
    have hI3 : e3.insts[i]? = some I3 := Eng.modI_self (Eng.modI_self hI2 _) _
    have hH3 : e3.insts[hi]? = some H := by
      show ((((e'.modI i _).modI i _).modI i _).modI i _).insts[hi]? = some H
      rw [Eng.modI_ne (Ne.symm hne), Eng.modI_ne (Ne.symm hne), Eng.modI_ne (Ne.symm hne), Eng.modI_ne (Ne.symm hne),
        hoth hi hne (List.getElem?_eq_some_iff.1 hH).1]
      exact hH
    obtain ⟨g1, g2, g3⟩ := Eng.failHost_sub hI3 err ((hc.host.trans hhost).trans hho) hne hH3 hHo
    rw [← h3, ← hs2] at g1 g2 g3
    refine ⟨by unfold flowStatus; rw [g1]; rfl, hi, ho, { hob2 with returnError := some err }, hho, g2, rfl, ⟨e3.wiCounter + 1, hi, ho⟩, ?_, rfl, rfl⟩
    rw [g3]
    exact List.mem_append_right _ (List.mem_singleton.2 rfl)

/-- C25, resumption: when the waiting task that started a subflow is executed again, it fails with exactly the error handed
to it, if there is one; otherwise it does not wait again, and it succeeds unless storing its outputs fails. -/
theorem C25_resumed {e e' : Eng} {t : TaskRef} {r : Eng.EvalOut} (h : Evaluates env e i o t e' r) {ob : Obj} {td : TaskDef}
    (ho : e.obj? i o = some ob) (hw : ob.status = .waiting) (htd : e.taskDef? i t = some td) (hkind : td.kind = .basic)
    (hretry : td.retry = false) {uri : String} (hact : td.act = .subflow uri) :
    (∀ err, ob.returnError = some err → r = .err err ∧ e'.obj? i o = some ob) ∧
    (ob.returnError = none → r = .res .done ∨ ∃ err, r = .err err) ∧
    (ob.returnError = none → (∀ f, env.outMap f i o = none) → (∀ s, env.icp s = none) → td.accumulates = false → r = .res .done) := by
  have ht : ob.task = t := by have := h.task; rw [ho] at this; cases this; rfl
  subst ht
  obtain ⟨w, _, _, _, h4, _⟩ := Eng.evaluates_eval h ho htd
  have h5 := h4 hw
  have h6 : (afterPop env e w).postKind env i o td = (afterPop env e w).postBasic env i o := by
    unfold Eng.postKind; rw [hkind]
  rw [h6] at h5
  obtain ⟨I, hI, hob⟩ := Eng.obj?_some ho
  have hop : (afterPop env e w).obj? i o = some ob := ho
  have hdp : (afterPop env e w).taskDef? i ob.task = some td := htd
  have hpI : (afterPop env e w).insts[i]? = some I := hI
  generalize afterPop env e w = p at h5 hop hdp hpI
  have hp1 : (p.modI i (fun I => { I with trace := .postAct o ob.task :: I.trace })).insts[i]? = some { I with trace := .postAct o ob.task :: I.trace } :=
    Eng.modI_self hpI _
  have ho1 : (p.modI i (fun I => { I with trace := .postAct o ob.task :: I.trace })).obj? i o = some ob := by
    rw [Eng.obj?_eq hp1]; exact hob
  have hd1 : ∀ t, (p.modI i (fun I => { I with trace := .postAct o ob.task :: I.trace })).taskDef? i t = p.taskDef? i t := by
    intro t; unfold Eng.taskDef?; rw [hp1, hpI]
  have hpost : p.postOnce env i o = match ob.returnError with
      | some err => (p.modI i (fun I => { I with trace := .postAct o ob.task :: I.trace }), .error err)
      | none => Eng.postStore env (p.modI i (fun I => { I with trace := .postAct o ob.task :: I.trace })) i o ob td := by
    unfold Eng.postOnce
    rw [hop]
    dsimp only
    rw [hdp]
    dsimp only
    have hc : Eng.callPost env (p.modI i (fun I => { I with trace := .postAct o ob.task :: I.trace })) i o td =
        (p.modI i (fun I => { I with trace := .postAct o ob.task :: I.trace }), .ok true) := by
      unfold Eng.callPost; rw [hact]
    rw [hc]
    dsimp only
    rw [ho1]
    simp only [Option.bind_some]
    cases ob.returnError <;> rfl
  have hnr : ∀ f : Eng, (∃ ob', f.obj? i o = some ob' ∧ ob'.task = ob.task) → f.taskDef? i ob.task = some td → f.hasRetry i o = false := by
    rintro f ⟨ob', h1, h2⟩ h3
    unfold Eng.hasRetry
    rw [h1]
    dsimp only
    rw [h2, h3]
    exact hretry
  unfold Eng.postBasic at h5
  rw [hpost] at h5
  generalize p.modI i (fun I => { I with trace := .postAct o ob.task :: I.trace }) = q at h5 ho1 hd1
  refine ⟨?_, ?_, ?_⟩
  · intro err he
    rw [he] at h5
    dsimp only at h5
    rw [hnr q ⟨ob, ho1, rfl⟩ ((hd1 _).trans hdp)] at h5
    simp only [Bool.and_false] at h5
    cases h5; exact ⟨rfl, ho1⟩
  · intro he
    rw [he] at h5
    dsimp only at h5
    have hl := Eng.LocalE.postStore (k := true) (env := env) (i := i) (o := o) q ob td
    have ht2 := hl.task
    rw [ho1] at ht2
    have hd2 := hl.taskDef ob.task
    rw [hd1, hdp] at hd2
    generalize Eng.postStore env q i o ob td = qq at h5 hl ht2 hd2
    obtain ⟨e2, rr⟩ := qq
    dsimp only at ht2 hd2
    cases rr with
    | ok u => cases h5; exact Or.inl rfl
    | error err =>
      dsimp only at h5
      have h8 : ∃ ob', e2.obj? i o = some ob' ∧ ob'.task = ob.task := by
        cases h9 : e2.obj? i o with
        | none => rw [h9] at ht2; cases ht2
        | some ob' => rw [h9] at ht2; exact ⟨ob', rfl, Option.some.inj ht2⟩
      rw [hnr e2 h8 hd2] at h5
      simp only [Bool.and_false] at h5
      cases h5; exact Or.inr ⟨_, rfl⟩
  · intro he hom hicp hacc
    rw [he] at h5
    dsimp only at h5
    have hicpOut : ∀ f : Eng, Eng.icpOut env f i ob = none := by
      intro f; unfold Eng.icpOut; cases f.insts[i]? with
      | none => rfl
      | some J => exact hicp _
    have : Eng.postStore env q i o ob td = (q, .ok ()) := by
      unfold Eng.postStore Eng.outputInterceptor Eng.assertion Eng.outputMapper
      simp only [hicpOut, hacc, hom, Eng.andThen]
      rfl
    rw [this] at h5
    cases h5; rfl

-- non-trivial instances: the subflow of `hostFlow` completes; the subflow of `twoSubs` without handler would fail
/-- A subflow whose only task fails. -/
def failSub : Env :=
  { tableEnv (fun t => if t = "X" then { res := .err (.plain "boom") } else {}) (fun _ => .ok true) with
    defs := fun u => if u = "r" then .ok (some { name := "s", main := ⟨[tk "X"], []⟩ }) else .ok none }
/-- The run of `hostFlow` in it. -/
def failSubRun (n : Nat) : Eng := Eng.run failSub (Eng.init failSub "1" "u" hostFlow []) n
example : ∃ e', Evaluates failSub (failSubRun 1) 1 0 ⟨false, "X"⟩ e' (.err (.plain "boom")) := ⟨_, ⟨⟨⟨2, 1, 0⟩, rfl, rfl, rfl, rfl⟩, rfl⟩⟩
example : ∃ e', Evaluates failSub (failSubRun 2) 0 0 ⟨false, "A"⟩ e' (.err (.plain "boom")) := ⟨_, ⟨⟨⟨3, 0, 0⟩, rfl, rfl, rfl, rfl⟩, rfl⟩⟩
example : flowStatus (failSubRun 3) 0 = some .failed ∧ flowStatus (failSubRun 3) 1 = some .failed := by decide
example : flowStatus (Eng.run (returnEnv none (.ok true)) (Eng.init (returnEnv none (.ok true)) "1" "u" hostFlow []) 1) 1 = some .active ∧
    flowStatus (Eng.run (returnEnv none (.ok true)) (Eng.init (returnEnv none (.ok true)) "1" "u" hostFlow []) 2) 1 = some .completed := by decide

/-- A failing task and an error handler with a link. -/
def handledSub : Def :=
  { name := "s", main := ⟨[tk "X"], []⟩, eh := some ⟨[tk "H", tk "K"], [⟨0, "H", "K", .expression, ""⟩]⟩ }
/-- `handledSub` is a subflow; the link expression of its error handler fails. -/
def handlerLinkFails : Env :=
  { tableEnv (fun t => if t = "X" then { res := .err (.plain "boom") } else {}) (fun _ => .err "bad") with
    defs := fun u => if u = "r" then .ok (some handledSub) else .ok none }

/-- C25 does not hold if the failure is a failing link expression of the error handler of the subflow: the subflow is Failed,
but the task that started it is never resumed and the parent flow stays Active for ever. -/
theorem C25_negation : ∀ n, 20 ≤ n →
    flowStatus (Eng.run handlerLinkFails (Eng.init handlerLinkFails "1" "u" hostFlow []) n) 1 = some .failed ∧
    flowStatus (Eng.run handlerLinkFails (Eng.init handlerLinkFails "1" "u" hostFlow []) n) 0 = some .active ∧
    calls (Eng.run handlerLinkFails (Eng.init handlerLinkFails "1" "u" hostFlow []) n) 0 = [.evalAct 0 ⟨false, "A"⟩] := by
  intro n hn
  have hrun : Eng.run handlerLinkFails (Eng.init handlerLinkFails "1" "u" hostFlow []) n =
      Eng.run handlerLinkFails (Eng.run handlerLinkFails (Eng.init handlerLinkFails "1" "u" hostFlow []) 20) (n - 20) := by
    rw [← Eng.run_add]; congr 1; omega
  have h := (stalled_forever (env := handlerLinkFails) (e := Eng.run handlerLinkFails (Eng.init handlerLinkFails "1" "u" hostFlow []) 20)
    (by decide) (by decide) (n - 20)).1
  rw [← hrun] at h
  unfold flowStatus calls
  rw [h]
  decide

/-- The subflow "r" has two tasks without links, of which X fails. -/
def lostSub : Env :=
  { tableEnv (fun t => if t = "X" then { res := .err (.plain "boom") } else {}) (fun _ => .ok true) with
    defs := fun u => if u = "r" then .ok (some { name := "s", main := ⟨[tk "X", tk "Y"], []⟩ }) else .ok none }
/-- The run of `hostFlow` in it. -/
def lostSubRun (n : Nat) : Eng := Eng.run lostSub (Eng.init lostSub "1" "u" hostFlow []) n

/-- C25 does not hold if a parallel branch of the failed subflow is still running: the error handed to the waiting task is
erased when the branch ends. The subflow failed and nothing handled the error, yet the task that started it succeeds and the
parent flow completes without an error. -/
theorem C25_negation_lost :
    (flowStatus (lostSubRun 2) 1 = some .failed ∧
      ((lostSubRun 2).obj? 0 0).map (fun ob => (ob.status, ob.returnError)) = some (.waiting, some (.plain "boom"))) ∧
    (∃ e', Evaluates lostSub (lostSubRun 4) 0 0 ⟨false, "A"⟩ e' (.res .done)) ∧
    ((lostSubRun 5).insts[0]?).map (fun I => (I.status, I.returnError)) = some (.completed, none) :=
  ⟨⟨by decide, rfl⟩, ⟨_, ⟨⟨⟨4, 0, 0⟩, rfl, rfl, rfl, rfl⟩, rfl⟩⟩, rfl⟩

/-! ### C27 -/

/-- Attribute `k` of a started flow: the supplied value, else the declared default, else what `base` says. -/
def StartValue (supplied declared : AMap String Val) (base : Option Val) (k : String) : Option Val :=
  match supplied.get? k with
  | some v => some v
  | none => match declared.get? k with
    | some v => some v
    | none => base

/-- The number in a value. -/
def number? : Val → Option Int
  | .int n => some n
  | _ => none

/-- The context of a flow instance: names and identifiers of the flow and of its parent, name and version of the application. -/
def contextValue (env : Env) (name id parentName parentId : String) (k : String) : Option Val :=
  if k = "_fctx.FlowName" then some (.str name) else if k = "_fctx.FlowId" then some (.str id)
  else if k = "_fctx.ParentFlowName" then some (.str parentName) else if k = "_fctx.ParentFlowId" then some (.str parentId)
  else if k = "_fctx.AppName" then some env.appName else if k = "_fctx.AppVersion" then some env.appVersion else none

theorem startAttrs_get {e : Eng} {I : Inst} (hA : I.attrs = []) (parent : Option (String × String)) (start : AMap String Val)
    (hn : start.keys.Nodup) (hd : AMap.keys I.defn.inputs |>.Nodup) (k : String) :
    ∃ base, (e.startAttrs env I parent start).get? k = StartValue start I.defn.inputs base k ∧
      ∀ v, contextValue env I.defn.name (e.instID I) ((parent.map (·.1)).getD "") ((parent.map (·.2)).getD "") k = some v → base = some v := by
  unfold Eng.startAttrs
  dsimp only
  refine ⟨AMap.get? (I.attrs.update [("_fctx.FlowName", .str I.defn.name), ("_fctx.FlowId", .str (e.instID I)), ("_fctx.AppName", env.appName),
     ("_fctx.AppVersion", env.appVersion), ("_fctx.TraceId", .str ""), ("_fctx.SpanId", .str ""),
     ("_fctx.ParentFlowName", .str ((parent.map (·.1)).getD "")), ("_fctx.ParentFlowId", .str ((parent.map (·.2)).getD ""))]) k, ?_, ?_⟩
  · rw [AMap.get?_update _ _ hn, AMap.get?_update _ _ hd]
    unfold StartValue
    cases start.get? k with
    | some v => rfl
    | none =>
      cases AMap.get? I.defn.inputs k with
      | some v => rfl
      | none => rfl
  · intro v hv
    rw [hA, AMap.get?_update _ _ (by simp [AMap.keys])]
    unfold contextValue at hv
    repeat' split at hv
    all_goals first | (subst_vars; cases hv; rfl) | cases hv

/-- C27, top-level flow: after the start every supplied attribute has its value, every declared input that was not supplied
has its default, and the flow context identifies the instance unless the caller or the declaration uses its names. -/
theorem C27_start (id uri : String) (d : Def) (ins : AMap String Val) (hn : ins.keys.Nodup) (hd : (AMap.keys d.inputs).Nodup) (k : String) :
    ∃ J base, (Eng.init env id uri d ins).insts[0]? = some J ∧ J.attrs.get? k = StartValue ins d.inputs base k ∧
      ∀ v, contextValue env d.name id "" "" k = some v → base = some v := by
  obtain ⟨J, h1, h2⟩ := Eng.startInstance_calm (env := env) (Eng.new id uri d) 0 ins (I := { defn := d, uri := uri }) rfl
  obtain ⟨base, h3, h4⟩ := startAttrs_get (env := env) (e := Eng.new id uri d) (I := { defn := d, uri := uri }) rfl
    ((Eng.new id uri d).parentOf { defn := d, uri := uri }) ins hn hd k
  exact ⟨J, base, h1, by rw [h2.attrs]; exact h3, h4⟩

/-- Attribute `k` of a called flow: a declared input has the value of the task's input, nil if the task has none of that name;
any other attribute is what `base` says. -/
def PassedValue (inputs declared : AMap String Val) (base : Option Val) (k : String) : Option Val :=
  if k ∈ AMap.keys declared then some ((inputs.get? k).getD .null) else base

theorem get?_cons (p : String × Val) (m : AMap String Val) (k : String) :
    AMap.get? (p :: m) k = if p.1 = k then some p.2 else AMap.get? m k := rfl

theorem keys_cons (p : String × Val) (m : AMap String Val) : AMap.keys (p :: m) = p.1 :: AMap.keys m := rfl

theorem get?_none_of_not_mem {m : AMap String Val} {k : String} (h : k ∉ AMap.keys m) : AMap.get? m k = none := by
  induction m with
  | nil => rfl
  | cons p m ih =>
    rw [keys_cons] at h
    rw [get?_cons, if_neg (fun hk => h (by rw [hk]; exact List.mem_cons_self))]
    exact ih (fun hm => h (List.mem_cons_of_mem _ hm))

theorem subflowInputs_get (d : Def) (inputs : AMap String Val) (k : String) :
    (Eng.subflowInputs d inputs).get? k = if k ∈ AMap.keys d.inputs then some ((inputs.get? k).getD .null) else none := by
  unfold Eng.subflowInputs
  generalize d.inputs = l
  induction l with
  | nil => rfl
  | cons p l ih =>
    rw [List.map_cons, get?_cons, keys_cons]
    dsimp only
    by_cases hk : p.1 = k
    · subst hk; rw [if_pos rfl, if_pos (List.mem_cons_self)]
    · rw [if_neg hk, ih]
      by_cases hm : k ∈ AMap.keys l
      · rw [if_pos hm, if_pos (List.mem_cons_of_mem _ hm)]
      · rw [if_neg hm, if_neg]
        intro h
        rcases List.mem_cons.1 h with rfl | h
        · exact hk rfl
        · exact hm h

theorem startValue_passed (d : Def) (inputs : AMap String Val) (base : Option Val) (k : String) :
    StartValue (Eng.subflowInputs d inputs) d.inputs base k = PassedValue inputs d.inputs base k := by
  unfold StartValue PassedValue
  rw [subflowInputs_get]
  split
  · rename_i h; split at h <;> simp_all
  · rename_i h
    split at h
    · cases h
    · rename_i hk; rw [get?_none_of_not_mem hk, if_neg hk]

/-- C27, subflow: when a task starts a subflow, the declared inputs of the new flow instance have the values of the inputs of the
task (what its input mapper computed), nil where the task has none, and its context identifies it and the flow of the task. The
declared defaults are not used, see `C27_negation_default`. -/
theorem C27_start_subflow {e e' : Eng} {t : TaskRef} {r : Eng.EvalOut} (h : Starts env e i o t e' r) {I : Inst} {td : TaskDef}
    (hI : e.insts[i]? = some I) (htd : e.taskDef? i t = some td) (hkind : td.kind = .basic) (hretry : td.retry = false)
    {uri : String} (hact : td.act = .subflow uri) (hs : Steady env i o) {d : Def} (hdef : env.defs uri = .ok (some d)) :
    r = .res .wait ∧ ∃ ob J, e'.obj? i o = some ob ∧ e'.insts[e.insts.length]? = some J ∧ J.defn = d ∧ J.status = .active ∧
      J.host = some (i, o) ∧ J.subflowId = e.subflowCtr + 1 ∧
      (∃ c : Eng, c.insts = e.insts ∧ ∀ m, env.inMap c i o = some (.ok m) → ob.inputs = m) ∧
      ((AMap.keys d.inputs).Nodup → ∀ k, ∃ base, J.attrs.get? k = PassedValue ob.inputs d.inputs base k ∧
        ∀ v, contextValue env d.name (e.id ++ "-" ++ toString (e.subflowCtr + 1)) I.defn.name (e.instID I) k = some v → base = some v) := by
  obtain ⟨h, hnw⟩ := h
  cases ho : e.obj? i o with
  | none => have := h.task; rw [ho] at this; cases this
  | some ob =>
  have ht : ob.task = t := by have := h.task; rw [ho] at this; cases this; rfl
  subst ht
  obtain ⟨w, _, _, _, _, h4⟩ := Eng.evaluates_eval h ho htd
  have h5 := h4 (hnw ob ho)
  have h6 : (afterPop env e w).evalKind env i o td = (afterPop env e w).evalBasic env i o := by
    unfold Eng.evalKind; rw [hkind]
  rw [h6] at h5
  have hop : (afterPop env e w).obj? i o = some ob := ho
  have hdp : (afterPop env e w).taskDef? i ob.task = some td := htd
  have hpI : (afterPop env e w).insts[i]? = some I := hI
  have hpi : (afterPop env e w).insts = e.insts := rfl
  have hpid : (afterPop env e w).id = e.id := rfl
  have hpc : (afterPop env e w).subflowCtr = e.subflowCtr := rfl
  generalize afterPop env e w = p at h5 hop hdp hpI hpi hpid hpc
  have hcall := Eng.evalOnce_subflow hs hop hdp hact hdef
  unfold Eng.evalBasic at h5
  rw [Eng.evalActivity_noRetry hop hdp hretry, hcall] at h5
  dsimp only at h5
  have hL := Eng.LocalE.applyInputMapper (k := true) (env := env) (i := i) (o := o) p td.name
  have hmap : ∀ m, env.inMap p i o = some (.ok m) →
      (p.applyInputMapper env i o td.name).1.obj? i o = some { ob with inputs := m } := by
    intro m hm
    unfold Eng.applyInputMapper
    rw [hm]
    dsimp only
    obtain ⟨I0, hI0, hob0⟩ := Eng.obj?_some hop
    rw [Eng.obj?_eq (Eng.modI_self hI0 _)]
    show (I0.objs.modify o _)[o]? = _
    rw [List.getElem?_modify, hob0]
    simp
  obtain ⟨I1, hI1, hL1⟩ := hL.inst hpI
  have hlen := hL.length
  obtain ⟨_, _, _, _, _, _, hsc, _, _, hid⟩ := hL.rest
  have htask := hL.task
  rw [hop] at htask
  unfold Eng.callState at h5
  generalize (p.applyInputMapper env i o td.name).1 = q at h5 hmap hI1 hlen hsc hid htask
  obtain ⟨ob1, ho1⟩ : ∃ ob1, q.obj? i o = some ob1 := by
    cases hx : q.obj? i o with
    | none => rw [hx] at htask; cases htask
    | some ob1 => exact ⟨ob1, rfl⟩
  have hI2 := Eng.called_inst (o := o) (t := ob.task) hI1
  have ho2 := (Eng.called_obj (e := q) (i := i) (o := o) (t := ob.task)).trans ho1
  have hlen2 : (q.called i o ob.task).insts.length = e.insts.length := by rw [← hpi, ← hlen]; exact Eng.modI_length _ _ _
  have hsc2 : (q.called i o ob.task).subflowCtr = e.subflowCtr := hsc.trans hpc
  have hid2 : (q.called i o ob.task).id = e.id := hid.trans hpid
  generalize q.called i o ob.task = c at h5 hI2 ho2 hlen2 hsc2 hid2
  rw [ho2] at h5
  have hil : i < e.insts.length := (List.getElem?_eq_some_iff.1 hI).1
  have hF := Eng.StartFrame.startInstance (env := env) c.insts.length (c.newEmbedded i o uri d) (Eng.subflowInputs d ob1.inputs)
  have hnew := Eng.newEmbedded_new c i o uri d
  obtain ⟨J, hJ, hC⟩ := Eng.startInstance_calm (env := env) (c.newEmbedded i o uri d) c.insts.length (Eng.subflowInputs d ob1.inputs) hnew
  have he' : e' = Eng.startInstance env (c.newEmbedded i o uri d) c.insts.length (Eng.subflowInputs d ob1.inputs) := congrArg Prod.fst h5
  refine ⟨congrArg Prod.snd h5, ob1, J, ?_, ?_, hC.defn, hC.status, hC.host, hC.subflowId.trans (by rw [← hsc2]; rfl), ⟨p, hpi, ?_⟩, ?_⟩
  · have h7 := hF.others i (by omega)
    rw [Eng.newEmbedded_getElem? c i o uri d (by omega), hI2] at h7
    rw [he', Eng.obj?_eq h7, ← Eng.obj?_eq hI2]; exact ho2
  · rw [he', ← hlen2]; exact hJ
  · intro m hm; have := hmap m hm; rw [ho1] at this; cases this; rfl
  · intro hd k
    have hn : (Eng.subflowInputs d ob1.inputs).keys.Nodup := by
      have : (Eng.subflowInputs d ob1.inputs).keys = AMap.keys d.inputs := by
        unfold Eng.subflowInputs AMap.keys; rw [List.map_map]; rfl
      rw [this]; exact hd
    have hp : (c.newEmbedded i o uri d).parentOf { defn := d, uri := uri, subflowId := c.subflowCtr + 1, host := some (i, o) } =
        some (I.defn.name, e.instID I) := by
      unfold Eng.parentOf
      dsimp only
      rw [Eng.newEmbedded_getElem? c i o uri d (by omega), hI2]
      show some (I1.defn.name, _) = _
      rw [hL1.defn]
      unfold Eng.instID
      dsimp only
      rw [hL1.subflowId]
      show some (_, if 0 < I.subflowId then c.id ++ _ ++ _ else c.id) = _
      rw [hid2]
    obtain ⟨base, h3, h4⟩ := startAttrs_get (env := env) (e := c.newEmbedded i o uri d)
      (I := { defn := d, uri := uri, subflowId := c.subflowCtr + 1, host := some (i, o) }) rfl
      ((c.newEmbedded i o uri d).parentOf { defn := d, uri := uri, subflowId := c.subflowCtr + 1, host := some (i, o) }) (Eng.subflowInputs d ob1.inputs) hn hd k
    rw [show StartValue (Eng.subflowInputs d ob1.inputs) _ base k = _ from startValue_passed d ob1.inputs base k] at h3
    refine ⟨base, by rw [hC.attrs]; exact h3, ?_⟩
    rw [hp] at h4
    intro v hv
    apply h4 v
    rw [← hv]
    have : (c.newEmbedded i o uri d).instID { defn := d, uri := uri, subflowId := c.subflowCtr + 1, host := some (i, o) } =
        e.id ++ "-" ++ toString (e.subflowCtr + 1) := by
      unfold Eng.instID
      rw [if_pos (by dsimp only; omega)]
      show c.id ++ "-" ++ toString (c.subflowCtr + 1) = _
      rw [hid2, hsc2]
    rw [this]
    rfl

-- non-trivial instance: the parent task of `hostFlow` passes an input to its subflow
/-- A subflow with two declared inputs; the input mapper of its host supplies one. -/
def startsSub : Env :=
  { returnEnv none (.ok true) with
    defs := fun u => if u = "r" then .ok (some { name := "s", main := ⟨[tk "X"], []⟩, inputs := [("x", .int 1), ("y", .int 2)] }) else .ok none
    inMap := fun _ i _ => if i = 0 then some (.ok [("x", .int 7)]) else none }
example : Steady startsSub 0 0 := ⟨fun _ m h => by simp [startsSub] at h, fun _ => rfl, fun _ => rfl⟩
example : ∃ e', Starts startsSub (Eng.init startsSub "1" "u" hostFlow []) 0 0 ⟨false, "A"⟩ e' (.res .wait) :=
  ⟨_, ⟨⟨⟨1, 0, 0⟩, rfl, rfl, rfl, rfl⟩, rfl⟩, fun ob h => by cases h; decide⟩

/-- C27 does not hold for the declared defaults of a called flow: the task passes 7 for `x` and nothing for `y`; the declared default
2 of `y` is replaced by nil. A flow that is started with the same inputs directly has the default. -/
theorem C27_negation_default :
    ((Eng.run startsSub (Eng.init startsSub "1" "u" hostFlow []) 1).insts[1]?).map
        (fun J => ((J.attrs.get? "x").bind number?, J.attrs.get? "y")) = some (some 7, some .null) ∧
    ((Eng.init startsSub "1" "r" { name := "s", main := ⟨[tk "X"], []⟩, inputs := [("x", .int 1), ("y", .int 2)] } [("x", .int 7)]).insts[0]?).map
        (fun J => ((J.attrs.get? "x").bind number?, (J.attrs.get? "y").bind number?)) = some (some 7, some 2) := ⟨rfl, by decide⟩

/-- C27 does not hold for the flow context: a supplied attribute named like an entry of the context replaces it. -/
theorem C27_negation : ((Eng.init (returnEnv none (.ok true)) "1" "u" hostFlow [("_fctx.FlowId", .int 5)]).insts[0]?).map
    (fun J => (J.attrs.get? "_fctx.FlowId").bind number?) = some (some 5) := by decide

end Flow
