import Verif.Proofs.Mock
import Verif.Spec.Plain

/-!
C41: mocked and skipped tasks.
-/

namespace Flow
open Spec

variable {env : Env} {i o : Nat}

/-- **C41** In every state of every execution: no activity of a task that the interceptor marks as skipped or mocked has
been called, in no instance (main flow or subflow), in no retry, loop iteration or error handler. -/
theorem C41_never_called {e : Eng} (hr : Reachable env e) {I : Inst} (hI : e.insts[i]? = some I) {t : TaskRef}
    (hc : .evalAct o t ∈ I.trace) : ¬ Blocked env I.defn.name t.id := by
  intro hb
  have h := Eng.NoCall.reachable (o := o) (t := t) hr I hI (Or.inl hb)
  exact absurd hc (List.count_eq_zero.1 h)

/-- The steps before the mock is looked at succeed: mapping and validating the inputs, validating the outputs. -/
structure Checked (env : Env) (i o : Nat) : Prop where
  inMap : ∀ e m, env.inMap e i o ≠ some (.error m)
  inSchema : ∀ e, env.inSchema e i o = none
  outSchema : ∀ e, env.outSchema e i o = none

/-- An attempt to evaluate a blocked task goes on with the part of `EvalActivity` after the activity. -/
theorem evalOnce_blocked (hk : Checked env i o) {e : Eng} {I : Inst} (hI : e.insts[i]? = some I) {ob : Obj}
    (ho : I.objs[o]? = some ob) {td : TaskDef} (htd : e.taskDef? i ob.task = some td)
    (hb : Blocked env I.defn.name ob.task.id) :
    ∃ c, Eng.LocalE true i o e c ∧ (c.obj? i o).map (·.outputs) = some ob.outputs ∧
      e.evalOnce env i o = c.afterDone env i o ob td := by
  have ho' : e.obj? i o = some ob := (Eng.obj?_eq hI).trans ho
  have hmap := Eng.LocalE.applyInputMapper (env := env) (k := true) (i := i) (o := o) e td.name
  have hout : ((e.applyInputMapper env i o td.name).1.obj? i o).map (·.outputs) = some ob.outputs ∧
      (e.applyInputMapper env i o td.name).2 = none := by
    unfold Eng.applyInputMapper
    split
    · rw [ho']; exact ⟨rfl, rfl⟩
    · rename_i m hm; exact absurd hm (hk.inMap e m)
    · rename_i m _
      rw [Eng.obj?_eq (Eng.modI_self hI _)]
      simp [Inst.modO, ho]
  generalize hp : e.applyInputMapper env i o td.name = p at hmap hout
  obtain ⟨e1, er⟩ := p
  obtain ⟨hout, her⟩ := hout
  dsimp only at hmap hout her
  subst her
  obtain ⟨I1, hI1, hl1⟩ := hmap.inst hI
  have hin := Eng.LocalE.inputInterceptor (env := env) (k := true) (i := i) (o := o) e1 ob
  have hout2 : ((e1.inputInterceptor env i o ob).1.obj? i o).map (·.outputs) = some ob.outputs := by
    unfold Eng.inputInterceptor
    split
    · exact hout
    · rw [Eng.obj?_eq (Eng.modI_self hI1 _)]
      rw [Eng.obj?_eq hI1] at hout
      cases hx : I1.objs[o]? with
      | none => rw [hx] at hout; cases hout
      | some x =>
        rw [hx] at hout
        simp [Inst.modO, hx]
        simpa using hout
  refine ⟨(e1.inputInterceptor env i o ob).1, hmap.trans hin, hout2, ?_⟩
  unfold Eng.evalOnce
  rw [ho']; dsimp only
  rw [htd]; dsimp only
  rw [hp]; dsimp only
  unfold Eng.evalWith
  by_cases hs : (e1.inputInterceptor env i o ob).2 = false
  · rw [if_pos hs]
  · rw [if_neg hs, hk.inSchema]
    dsimp only
    have hm : Eng.mocked env (e1.inputInterceptor env i o ob).1 i ob = true := by
      rcases hb with ⟨c, hc, hsk⟩ | ⟨c, hc, hsk⟩
      · exfalso
        apply hs
        unfold Eng.inputInterceptor Eng.icpIn
        rw [hc]; simp [hsk]
      · obtain ⟨J, hJ, h1⟩ := (hmap.trans hin).inst hI
        unfold Eng.mocked Eng.icpOut
        rw [hJ]
        dsimp only
        rw [h1.defn, hc]
        exact hsk
    rw [if_pos hm]

/-- **C41** A mocked exception makes every attempt to evaluate the task fail with the given message: first evaluation,
retry, and every iteration of a loop. -/
theorem C41_exception_attempt (hk : Checked env i o) {e : Eng} {I : Inst} (hI : e.insts[i]? = some I) {ob : Obj}
    (ho : I.objs[o]? = some ob) {td : TaskDef} (htd : e.taskDef? i ob.task = some td)
    (hb : Blocked env I.defn.name ob.task.id) {c : TaskIcp} (hc : env.icp (I.defn.name ++ "-" ++ ob.task.id) = some c)
    (hty : c.type = .mockException) {m : String} (hm : c.outputs.get? "message" = some (.str m)) :
    ∃ data, (e.evalOnce env i o).2 = .error (.act m "" data ob.task.id false) := by
  have hne : c.outputs.length ≠ 0 := by
    intro h0
    rw [List.length_eq_zero_iff.1 h0] at hm
    cases hm
  obtain ⟨g, hg1, _, hg3⟩ := evalOnce_blocked hk hI ho htd hb
  rw [hg3]
  obtain ⟨K, hK, hK1⟩ := hg1.inst hI
  unfold Eng.afterDone
  rw [hk.outSchema]
  dsimp only
  unfold Eng.outputInterceptor Eng.icpOut
  rw [hK]
  dsimp only
  rw [hK1.defn, hc]
  dsimp only
  rw [if_neg hne, hty]
  dsimp only
  rw [hm]
  exact ⟨_, rfl⟩

/-- **C41** A mocked exception makes the evaluation of a task (other than an iterator, whose loop may be empty) fail with
the given message, without a retry: the result of the evaluation is the error with this message. -/
theorem C41_exception (hk : Checked env i o) {e e' : Eng} {t : TaskRef} {r : Eng.EvalOut}
    (h : Evaluates env e i o t e' r) {I : Inst} (hI : e.insts[i]? = some I) {td : TaskDef}
    (htd : e.taskDef? i t = some td) (hkind : td.kind ≠ .iterator)
    (hnew : ∀ ob, e.obj? i o = some ob → ob.status ≠ .waiting)
    (hb : Blocked env I.defn.name t.id) {c : TaskIcp} (hc : env.icp (I.defn.name ++ "-" ++ t.id) = some c)
    (hty : c.type = .mockException) {m : String} (hm : c.outputs.get? "message" = some (.str m)) :
    ∃ data, r = .err (.act m "" data t.id false) := by
  obtain ⟨ob, ho, ht⟩ : ∃ ob, e.obj? i o = some ob ∧ ob.task = t := by
    have := h.task
    cases h : e.obj? i o with
    | none => rw [h] at this; cases this
    | some ob => rw [h] at this; cases this; exact ⟨ob, rfl, rfl⟩
  subst ht
  obtain ⟨w, _, _, _, _, h5⟩ := Eng.evaluates_eval h ho htd
  have h6 := h5 (hnew ob ho)
  have hob : I.objs[o]? = some ob := (Eng.obj?_eq hI).symm.trans ho
  -- one attempt fails with the message
  have hatt : ∀ (f : Eng) (J : Inst) (x : Obj), f.insts[i]? = some J → J.objs[o]? = some x → x.task = ob.task → J.defn = I.defn →
      f.taskDef? i ob.task = some td → ∃ data, (f.evalOnce env i o).2 = .error (.act m "" data ob.task.id false) := by
    intro f J x hJ hx hxt hd hftd
    have := C41_exception_attempt hk hJ hx (td := td) (by rw [hxt]; exact hftd) (by rw [hxt, hd]; exact hb)
      (by rw [hxt, hd]; exact hc) hty hm
    rw [hxt] at this
    exact this
  have hact : ∀ (f : Eng) (J : Inst) (x : Obj), f.insts[i]? = some J → J.objs[o]? = some x → x.task = ob.task → J.defn = I.defn →
      f.taskDef? i ob.task = some td → ∃ data f', f.evalActivity env i o = (f', .error (.act m "" data ob.task.id false)) := by
    intro f J x hJ hx hxt hd hftd
    obtain ⟨data, h1⟩ := hatt f J x hJ hx hxt hd hftd
    unfold Eng.evalActivity
    generalize f.evalOnce env i o = q at h1
    obtain ⟨f1, q2⟩ := q
    dsimp only at h1
    subst h1
    exact ⟨data, f1, rfl⟩
  have hI' : (afterPop env e w).insts[i]? = some I := hI
  have htd' : (afterPop env e w).taskDef? i ob.task = some td := htd
  unfold Eng.evalKind at h6
  cases hkd : td.kind with
  | iterator => exact absurd hkd hkind
  | basic =>
    rw [hkd] at h6
    dsimp only at h6
    unfold Eng.evalBasic at h6
    obtain ⟨data, f', h7⟩ := hact _ I ob hI' hob rfl rfl htd'
    rw [h7] at h6
    cases h6
    exact ⟨data, rfl⟩
  | doWhile =>
    rw [hkd] at h6
    dsimp only at h6
    unfold Eng.evalDoWhile at h6
    have hl := Eng.LocalE.dwInit (i := i) (o := o) (afterPop env e w)
    obtain ⟨J, hJ, hJ1⟩ := hl.inst hI'
    have h8 := hJ1.core o
    rw [hob] at h8
    cases hx : J.objs[o]? with
    | none => rw [hx] at h8; cases h8
    | some x =>
      rw [hx] at h8
      have hxt : x.task = ob.task := by simp at h8; exact h8.1
      obtain ⟨data, f', h7⟩ := hact _ J x hJ hx hxt hJ1.defn (by rw [hl.taskDef]; exact htd')
      rw [h7] at h6
      cases h6
      exact ⟨data, rfl⟩

/-- **C41** The mocked outputs become the outputs of the task: every attempt to evaluate a blocked task continues in a
state in which the outputs of the task are the mocked values (converted to the declared types), over those of an
earlier evaluation; from this state the outputs are mapped or accumulated as usual. -/
theorem C41_outputs (hk : Checked env i o) {e : Eng} {I : Inst} (hI : e.insts[i]? = some I) {ob : Obj}
    (ho : I.objs[o]? = some ob) {td : TaskDef} (htd : e.taskDef? i ob.task = some td)
    (hb : Blocked env I.defn.name ob.task.id) {c : TaskIcp}
    (hc : env.icp (I.defn.name ++ "-" ++ ob.task.id) = some c) (hty : c.type = .mockActivity) (hne : c.outputs ≠ [])
    (hco : ∀ p ∈ c.outputs, env.coerceOut ob.task p.1 p.2 = .ok p.2) :
    ∃ g : Eng, (g.obj? i o).map (·.outputs) = some (some ((ob.outputs.getD []).update c.outputs)) ∧
      (e.evalOnce env i o) = Eng.doneOrErr (Eng.andThen (g.storeOutputs env i o ob.task.id td) (fun f => f.assertion env i ob)) := by
  obtain ⟨g, hg1, hg2, hg3⟩ := evalOnce_blocked hk hI ho htd hb
  obtain ⟨K, hK, hK1⟩ := hg1.inst hI
  have hmapM : c.outputs.mapM (fun p => (env.coerceOut ob.task p.1 p.2).map (fun v => (p.1, v))) = .ok c.outputs := by
    clear hne hc hty
    generalize c.outputs = l at hco
    induction l with
    | nil => rfl
    | cons p l ih =>
      rw [List.mapM_cons, hco p (by simp), ih (fun q hq => hco q (by simp [hq]))]
      rfl
  have hlen : c.outputs.length ≠ 0 := fun h0 => hne (List.length_eq_zero_iff.1 h0)
  refine ⟨g.modI i (fun J => J.modO o (fun x => { x with outputs := some ((x.outputs.getD []).update c.outputs) })), ?_, ?_⟩
  · rw [Eng.obj?_eq (Eng.modI_self hK _)]
    rw [Eng.obj?_eq hK] at hg2
    cases hx : K.objs[o]? with
    | none => rw [hx] at hg2; cases hg2
    | some x =>
      rw [hx] at hg2
      have : x.outputs = ob.outputs := by simpa using hg2
      simp [Inst.modO, hx, this]
  · rw [hg3]
    unfold Eng.afterDone
    rw [hk.outSchema]
    dsimp only
    have : Eng.outputInterceptor env g i o ob td = (g.modI i (fun J => J.modO o (fun x =>
        { x with outputs := some ((x.outputs.getD []).update c.outputs) })), none) := by
      unfold Eng.outputInterceptor Eng.icpOut
      rw [hK]
      dsimp only
      rw [hK1.defn, hc]
      dsimp only
      rw [if_neg hlen, hty]
      dsimp only
      rw [hmapM]
    rw [this]
    rfl

/-! ### Concrete cases -/

/-- A flow `F` with the tasks `A`, `B`, `C` in sequence. -/
def mockChain : Def := { name := "F", main := { tasks := [tk "A", tk "B", tk "C"], links := deps 0 [("A", "B"), ("B", "C")] } }

/-- An interceptor with the given entries; the activities would succeed. -/
def mockEnv (m : List (String × TaskIcp)) : Env := { plainEnv with icp := fun k => AMap.get? m k }

/-- The calls made in the first instance. -/
def calledTasks (e : Eng) : List TaskId :=
  ((e.insts[0]?).map (fun I => I.trace.reverse.filterMap (fun | .evalAct _ t => some t.id | _ => none))).getD []

/-- The case of `C41_never_called`: `A` skipped, `B` mocked; the flow completes and only `C` is called. -/
example :
    Blocked (mockEnv [("A", { skip := true }), ("F-B", { skipExecution := true })]) "F" "A" ∧
    Blocked (mockEnv [("A", { skip := true }), ("F-B", { skipExecution := true })]) "F" "B" ∧
    ¬ Blocked (mockEnv [("A", { skip := true }), ("F-B", { skipExecution := true })]) "F" "C" ∧
    calledTasks (Eng.run (mockEnv [("A", { skip := true }), ("F-B", { skipExecution := true })])
      (Eng.init (mockEnv [("A", { skip := true }), ("F-B", { skipExecution := true })]) "1" "f" mockChain []) 20) = ["C"] ∧
    flowStatus (Eng.run (mockEnv [("A", { skip := true }), ("F-B", { skipExecution := true })])
      (Eng.init (mockEnv [("A", { skip := true }), ("F-B", { skipExecution := true })]) "1" "f" mockChain []) 20) 0 = some .completed := by
  refine ⟨Or.inl ⟨_, rfl, rfl⟩, Or.inr ⟨_, rfl, rfl⟩, ?_, by rfl, by rfl⟩
  rintro (⟨c, h, _⟩ | ⟨c, h, _⟩)
  · exact nomatch (show (none : Option TaskIcp) = some c from h)
  · exact nomatch (show (none : Option TaskIcp) = some c from h)

/-- The case of `C41_exception` and `C41_outputs`: a mocked exception and mocked outputs for `A`. -/
example : Checked (mockEnv [("F-A", { skipExecution := true, type := .mockException, outputs := [("message", .str "boom")] })]) 0 0 :=
  ⟨(fun _ _ h => nomatch h), fun _ => rfl, fun _ => rfl⟩

/-- With the mocked exception the flow fails without a call, and with mocked outputs the outputs of `A` are those. -/
example :
    (let env := mockEnv [("F-A", { skipExecution := true, type := .mockException, outputs := [("message", .str "boom")] })]
     let e := Eng.run env (Eng.init env "1" "f" mockChain []) 20
     (calledTasks e, flowStatus e 0)) = ([], some .failed) ∧
    (let env := mockEnv [("F-A", { skipExecution := true, type := .mockActivity, outputs := [("x", .int 3)] })]
     let e := Eng.run env (Eng.init env "1" "f" mockChain []) 20
     (calledTasks e, flowStatus e 0, ((e.obj? 0 0).bind (·.outputs)).map (·.keys))) = (["B", "C"], some .completed, some ["x"]) := by
  refine ⟨by rfl, by rfl⟩

/-- **C41** depends on how the task is named in the interceptor: skipping looks for the identifier of the task only, so
that it cannot be restricted to one flow, and mocking looks for flow and task only. An entry that marks the task in the
other form is silently ignored: here `A` is marked as skipped under `F-A` and `B` as mocked under `B`, and both are
called. -/
theorem C41_negation :
    calledTasks (Eng.run (mockEnv [("F-A", { skip := true }), ("B", { skipExecution := true })])
      (Eng.init (mockEnv [("F-A", { skip := true }), ("B", { skipExecution := true })]) "1" "f" mockChain []) 20) = ["A", "B", "C"] := by
  rfl

end Flow
