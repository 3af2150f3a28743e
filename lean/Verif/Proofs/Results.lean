import Verif.Proofs.Loops
import Verif.Spec.Results

/-
Lemmas about completion, explicit return and the outcome of subflows.
-/

namespace Flow
open Spec

theorem errorObj_describes (t : TaskId) (err : Err) : Describes (errorObj t err) t err := by
  cases err with
  | act m c d a r =>
    refine ⟨rfl, ?_, ?_⟩
    · rfl
    · intro m' c' d' a' r' h
      cases h
      exact ⟨rfl, rfl⟩
  | eval n ty m => exact ⟨rfl, rfl, fun _ _ _ _ _ h => nomatch h⟩
  | linkExpr m => exact ⟨rfl, rfl, fun _ _ _ _ _ h => nomatch h⟩
  | plain m => exact ⟨rfl, rfl, fun _ _ _ _ _ h => nomatch h⟩

namespace Eng

variable {env : Env} {i o : Nat}

theorem doneTask_ok {I : Inst} {t : TaskRef} {ev : LinkDef → ExprOut} (prio : Bool) (h : ¬ exprFails (I.defn.toLinks t) ev) :
    ∃ es, (I.doneTask prio ev o t).2 = .ok es := by
  unfold Inst.doneTask
  dsimp only
  cases hd : doneRows prio ev (I.defn.toLinks t) with
  | error p =>
    have := (doneRows_ok prio ev (I.defn.toLinks t) h)
    obtain ⟨rows, h1, _⟩ := this
    rw [hd] at h1; cases h1
  | ok rows => exact ⟨_, rfl⟩

/-- Finishing a task whose flow was told to return. -/
theorem taskDone_forced {e : Eng} {I : Inst} {t : TaskRef} (hI : e.insts[i]? = some I) (hf : I.force = true)
    (hex : ¬ exprFails (I.defn.toLinks t) (env.link e i)) :
    ∃ I1, Calm I I1 ∧ e.taskDone env i o t = { (e.modI i (fun _ => I1)).complete i with cur := i, stack := [.release t] } := by
  obtain ⟨es, hes⟩ := doneTask_ok (o := o) env.prio hex
  have hc := Calm.doneTask env.prio (env.link e i) I o t
  unfold Eng.taskDone
  rw [hI]
  dsimp only
  generalize I.doneTask env.prio (env.link e i) o t = q at hes hc
  obtain ⟨I1, r⟩ := q
  dsimp only at hes hc
  subst hes
  refine ⟨I1, hc, ?_⟩
  dsimp only
  unfold Eng.finishTask
  have h1 : (e.modI i (fun _ => I1)).insts[i]? = some I1 := modI_self hI _
  rw [h1]
  dsimp only
  rw [if_pos]
  rw [hc.force, hf]; simp

/-- Completion of the top-level flow changes its status only. -/
theorem complete_top {e : Eng} {I : Inst} (hI : e.insts[0]? = some I) : e.complete 0 = e.modI 0 (fun J => J.setFlowStatus .completed) := by
  unfold Eng.complete
  rw [hI]
  rfl

/-- Completion of a subflow hands its return data to its host and schedules it. -/
theorem complete_sub {e : Eng} {I H : Inst} {hi ho : Nat} {hob : Obj} (hI : e.insts[i]? = some I) (hi0 : i ≠ 0)
    (hh : I.host = some (hi, ho)) (hne : hi ≠ i) (hH : e.insts[hi]? = some H) (hho : H.objs[ho]? = some hob) :
    (e.complete i).insts[i]? = some (I.setFlowStatus .completed) ∧
    (e.complete i).obj? hi ho = some { hob with outputs := I.returnData, returnError := none } ∧
    (e.complete i).queue = e.queue ++ [⟨e.wiCounter + 1, hi, ho⟩] := by
  have h1 : e.complete i = { ((e.modI i (fun J => J.setFlowStatus .completed)).modI hi
      (fun H => H.modO ho (fun x => { x with outputs := I.returnData, returnError := none }))).schedule hi ho with
      subflows := (((e.modI i (fun J => J.setFlowStatus .completed)).modI hi
      (fun H => H.modO ho (fun x => { x with outputs := I.returnData, returnError := none }))).schedule hi ho).subflows.del I.subflowId } := by
    unfold Eng.complete
    rw [hI]
    dsimp only
    rw [if_neg hi0, hh]
  have h2 : (e.modI i (fun J => J.setFlowStatus .completed)).insts[i]? = some (I.setFlowStatus .completed) := modI_self hI _
  have h3 : (e.modI i (fun J => J.setFlowStatus .completed)).insts[hi]? = some H := by rw [modI_ne (Ne.symm hne)]; exact hH
  rw [h1]
  refine ⟨?_, ?_, rfl⟩
  · show (Eng.modI _ hi _).insts[i]? = _
    rw [modI_ne hne]; exact h2
  · have h4 : ((e.modI i (fun J => J.setFlowStatus .completed)).modI hi
      (fun H => H.modO ho (fun x => { x with outputs := I.returnData, returnError := none }))).insts[hi]? =
        some (H.modO ho (fun x => { x with outputs := I.returnData, returnError := none })) := modI_self h3 _
    refine (obj?_eq (I := H.modO ho (fun x => { x with outputs := I.returnData, returnError := none })) ?_).trans ?_
    · exact h4
    · simp [Inst.modO, hho]

/-- Failing of a subflow hands the error to its host and schedules it. -/
theorem failHost_sub {e : Eng} {I H : Inst} {hi ho : Nat} {hob : Obj} (hI : e.insts[i]? = some I) (err : Err)
    (hh : I.host = some (hi, ho)) (hne : hi ≠ i) (hH : e.insts[hi]? = some H) (hho : H.objs[ho]? = some hob) :
    (e.failHost i err).insts[i]? = some I ∧
    (e.failHost i err).obj? hi ho = some { hob with returnError := some err } ∧
    (e.failHost i err).queue = e.queue ++ [⟨e.wiCounter + 1, hi, ho⟩] := by
  have h1 : e.failHost i err = (e.modI hi (fun H => H.modO ho (fun x => { x with returnError := some err }))).schedule hi ho := by
    unfold Eng.failHost
    rw [hI]
    dsimp only
    rw [hh]
  rw [h1]
  have h4 : (e.modI hi (fun H => H.modO ho (fun x => { x with returnError := some err }))).insts[hi]? =
        some (H.modO ho (fun x => { x with returnError := some err })) := modI_self hH _
  refine ⟨?_, ?_, rfl⟩
  · show (Eng.modI _ hi _).insts[i]? = _
    rw [modI_ne hne]; exact hI
  · refine (obj?_eq (I := H.modO ho (fun x => { x with returnError := some err })) ?_).trans ?_
    · exact h4
    · simp [Inst.modO, hho]

/-- An activity that calls `Return`. -/
theorem applyActOut_return {e : Eng} {I : Inst} (hI : e.insts[i]? = some I) {a : ActOut} {d : Option (AMap String Val)} {er : Option Err}
    (hret : a.ret = some (d, er)) (hrep : a.reply = none) :
    ∃ I', (e.applyActOut i o a).insts[i]? = some I' ∧ I'.force = true ∧ I'.returnData = d ∧ I'.returnError = er := by
  unfold Eng.applyActOut
  rw [hrep]
  dsimp only
  refine ⟨_, modI_self hI _, ?_⟩
  rw [hret]
  exact ⟨rfl, rfl, rfl⟩

end Eng
end Flow

namespace Flow
open Spec
namespace Eng

variable {env : Env} {i o : Nat}

/-- No flow instance becomes Completed. -/
def NoComp (e f : Eng) : Prop := ∀ j, flowStatus f j = some .completed → flowStatus e j = some .completed

theorem NoComp.refl (e : Eng) : NoComp e e := fun _ h => h
theorem NoComp.trans {e f g : Eng} (h : NoComp e f) (h' : NoComp f g) : NoComp e g := fun j hj => h j (h' j hj)

theorem NoComp.modI {e : Eng} {f : Inst → Inst} (h : ∀ I : Inst, e.insts[i]? = some I → (f I).status = .completed → I.status = .completed) :
    NoComp e (e.modI i f) := by
  intro j hj
  unfold Spec.flowStatus at hj ⊢
  rw [modI_getElem?] at hj
  split at hj
  · rename_i hij; subst hij
    cases hI : e.insts[i]? with
    | none => rw [hI] at hj; cases hj
    | some I =>
      rw [hI] at hj
      simp only [Option.map_some, Option.some.injEq] at hj
      simp [h I hI hj]
  · exact hj

theorem NoComp.failHost (e : Eng) (err : Err) : NoComp e (e.failHost i err) := by
  unfold Eng.failHost
  split
  · exact .refl _
  · split
    · exact .refl _
    · rename_i hi ho _
      intro j hj
      exact NoComp.modI (i := hi) (f := fun H => H.modO ho (fun x => { x with returnError := some err })) (fun I _ h => h) j hj

theorem NoComp.globalError (e : Eng) (err : Err) : NoComp e (e.globalError i err) := by
  unfold Eng.globalError
  split
  · exact .refl _
  · split
    · exact .modI (fun _ _ h => nomatch h)
    · split
      · intro j hj
        refine NoComp.trans (NoComp.modI (i := i) (f := fun J => { J with handling := true }) (fun _ _ h => h)) (NoComp.trans (NoComp.modI (i := 0) (f := fun J => J.clearTasks) (fun _ _ h => h)) (NoComp.modI (i := i) (f := fun J => { J with trace := .ehStart :: J.trace }) (fun _ _ h => h))) j hj
      · have h1 : NoComp e ((e.modI i (fun J => { J with handling := true })).modI i (fun J => J.setFlowStatus .failed)) :=
          NoComp.trans (NoComp.modI (f := fun J => { J with handling := true }) (fun _ _ h => h)) (NoComp.modI (f := fun J => J.setFlowStatus .failed) (fun _ _ h => nomatch h))
        dsimp only
        split
        · exact h1.trans (.modI (fun _ _ h => h))
        · exact h1.trans (.failHost _ _)

theorem NoComp.appendErrorData (e : Eng) (t : TaskId) (err : Err) : NoComp e (e.appendErrorData i t err) := .modI (fun _ _ h => h)

theorem NoComp.taskError (e : Eng) (t : TaskRef) (err : Err) : NoComp e (e.taskError i o t err) := by
  unfold Eng.taskError
  split
  · exact .refl _
  · rename_i I hI
    have hc := (Calm.errorTask I o t).status
    generalize I.errorTask o t = q at hc
    obtain ⟨I1, r⟩ := q
    dsimp only at hc
    have h0 : NoComp e (e.modI i (fun _ => I1)) := .modI (fun J hJ h => by rw [hI] at hJ; cases hJ; rw [← hc]; exact h)
    cases r with
    | some es =>
      intro j hj
      exact NoComp.modI (i := i) (f := fun _ => I1.setValue ("_E." ++ t.id) (errorObj t.id err))
        (fun J hJ h => by rw [hI] at hJ; cases hJ; rw [← hc]; exact h) j hj
    | none =>
      dsimp only
      split
      · have h1 := h0.trans (NoComp.modI (i := i) (f := fun J => J.setFlowStatus .failed) (fun _ _ h => nomatch h))
        split
        · exact h1.trans (.appendErrorData _ _ _)
        · exact h1.trans (.failHost _ _)
      · exact (h0.trans (.appendErrorData _ _ _)).trans (.globalError _ _)

/-- Finishing a task completes at most its own instance. -/
theorem finishTask_comp (e : Eng) (t : TaskRef) (n : Bool) (es : List TaskEntry) (rest : List Frame) :
    NoComp e (e.finishTask i t n es rest) ∨
      e.finishTask i t n es rest = { e.complete i with cur := i, stack := .release t :: rest } := by
  unfold Eng.finishTask
  split
  · exact Or.inl (.refl _)
  · split
    · exact Or.inr rfl
    · exact Or.inl (fun j hj => hj)

/-- The host of an instance that has become Completed has its result. -/
def Handed (f : Eng) (i : Nat) : Prop := ∃ (J : Inst) (hi ho : Nat) (hob : Obj), f.insts[i]? = some J ∧ J.host = some (hi, ho) ∧
  f.obj? hi ho = some hob ∧ hob.outputs = J.returnData ∧ hob.returnError = none ∧ ∃ w ∈ f.queue, w.inst = hi ∧ w.obj = ho

theorem complete_comp {e : Eng} {j : Nat} (hj : j ≠ i) (h : flowStatus (e.complete i) j = some .completed) : flowStatus e j = some .completed := by
  have hst : ∀ (e : Eng) (hi ho : Nat) (g : Obj → Obj), flowStatus ((e.modI hi (fun H => H.modO ho g)).schedule hi ho) j = flowStatus e j := by
    intro e hi ho g
    show flowStatus (e.modI hi _) j = _
    exact flowStatus_modI_same (fun _ => rfl)
  unfold Eng.complete at h
  split at h
  · exact h
  · rename_i I hI
    dsimp only at h
    have h1 : flowStatus (e.modI i (fun J => J.setFlowStatus .completed)) j = flowStatus e j := flowStatus_modI_ne (Ne.symm hj) _
    split at h
    · rw [h1] at h; exact h
    · cases hh : I.host with
      | none => rw [hh] at h; exact h1 ▸ h
      | some p =>
        obtain ⟨hi, ho⟩ := p
        rw [hh] at h
        have : flowStatus ((((e.modI i (fun J => J.setFlowStatus .completed)).modI hi (fun H => H.modO ho (fun x =>
          { x with outputs := I.returnData, returnError := none }))).schedule hi ho)) j = some .completed := h
        rw [hst, h1] at this; exact this

theorem finish_handed {e : Eng} {I H : Inst} {hi ho : Nat} {hob : Obj} (hI : e.insts[i]? = some I) (hi0 : i ≠ 0)
    (hh : I.host = some (hi, ho)) (hne : hi ≠ i) (hH : e.insts[hi]? = some H) (hho : H.objs[ho]? = some hob)
    (t : TaskRef) (rest : List Frame) : Handed { e.complete i with cur := i, stack := .release t :: rest } i := by
  obtain ⟨g1, g2, g3⟩ := complete_sub hI hi0 hh hne hH hho
  refine ⟨I.setFlowStatus .completed, hi, ho, _, g1, hh, g2, rfl, rfl, ⟨e.wiCounter + 1, hi, ho⟩, ?_, rfl, rfl⟩
  show _ ∈ (e.complete i).queue
  rw [g3]
  exact List.mem_append_right _ (List.mem_singleton.2 rfl)

/-- A step that makes a subflow Completed hands its result to its host. -/
theorem step_handed {e : Eng} (hr : Reachable env e) {j : Nat} {I : Inst} (hj0 : j ≠ 0) (hI : e.insts[j]? = some I)
    (hs : I.status ≠ .completed) (h : flowStatus (e.step env) j = some .completed) : Handed (e.step env) j := by
  have hns : flowStatus e j ≠ some .completed := by unfold Spec.flowStatus; rw [hI]; simpa using hs
  have hjl : j < e.insts.length := (List.getElem?_eq_some_iff.1 hI).1
  obtain ⟨hi, ho, hhst, hlt2, H, hob2, hH, hHo, _⟩ := (engOK_reachable hr).hosts j I hI hj0
  have hne : hi ≠ j := by omega
  have hl := (engOK_reachable hr).length_pos
  -- finishing a task in a state that differs from `e` in calm changes only
  have key : ∀ (f : Eng) (k : Nat) (I1 : Inst) (t : TaskRef) (n : Bool) (es : List TaskEntry) (rest : List Frame),
      NoComp e f → f.insts[k]? = some I1 → (j = k → I1.host = some (hi, ho) ∧ f.insts[hi]? = some H) →
      flowStatus (f.finishTask k t n es rest) j = some .completed → Handed (f.finishTask k t n es rest) j := by
    intro f k I1 t n es rest hnc hI1 hk hc
    rcases finishTask_comp (i := k) f t n es rest with h1 | h1
    · exact absurd (hnc _ (h1 _ hc)) hns
    · by_cases hjk : j = k
      · subst hjk
        obtain ⟨h2, h3⟩ := hk rfl
        rw [h1]
        exact finish_handed hI1 hj0 h2 hne h3 hHo t rest
      · rw [h1] at hc
        exact absurd (hnc _ (complete_comp hjk hc)) hns
  cases hst : e.stack with
  | nil =>
    cases hn : next env e with
    | none =>
      rw [step_idle hst hn hl] at h
      exact absurd h hns
    | some w =>
      rw [step_next hn] at h ⊢
      cases hout : outcome env (afterPop env e w) w.inst w.obj with
      | none => rw [exec_none hout] at h; exact absurd h hns
      | some q =>
        obtain ⟨e', r⟩ := q
        cases hob : (afterPop env e w).obj? w.inst w.obj with
        | none => unfold Spec.outcome at hout; rw [hob] at hout; cases hout
        | some ob =>
        obtain ⟨td, htd, hex⟩ := exec_outcome hob hout
        rw [hex] at h ⊢
        obtain ⟨I0, hI0, _⟩ := obj?_some hob
        obtain ⟨I1, hI1, hd1, _, hst1, hhost1, _⟩ := outcome_inst hout hI0
        have hstat : flowStatus e' j = flowStatus e j := by
          by_cases hjw : j = w.inst
          · subst hjw
            unfold Spec.flowStatus
            have : e.insts[w.inst]? = some I0 := hI0
            rw [hI1, this]; simp [hst1]
          · unfold Spec.flowStatus
            rw [outcome_other hout hjw hjl]; rfl
        have hnj : flowStatus e' j ≠ some .completed := by rw [hstat]; exact hns
        have nocomp : ∀ f, NoComp e' f → flowStatus f j = some .completed → False := fun f hf hc => hnj (hf j hc)
        cases r with
        | err er => exact (nocomp _ (NoComp.taskError _ _ _) h).elim
        | panic m =>
          exfalso
          simp only [Eng.handleResult, hI1] at h
          split at h
          · exact hnj h
          · exact nocomp _ ((NoComp.appendErrorData _ _ _).trans (.globalError _ _)) h
        | res r =>
          have hdone : ∀ t, flowStatus (taskDone env e' w.inst w.obj t) j = some .completed → Handed (taskDone env e' w.inst w.obj t) j := by
            intro t
            unfold Eng.taskDone
            rw [hI1]
            dsimp only
            have hcalm := Calm.doneTask env.prio (env.link e' w.inst) I1 w.obj t
            generalize I1.doneTask env.prio (env.link e' w.inst) w.obj t = q at hcalm
            obtain ⟨I2, rr⟩ := q
            dsimp only at hcalm
            have h0 : NoComp e' (e'.modI w.inst (fun _ => I2)) :=
              .modI (fun J hJ h => by rw [hI1] at hJ; cases hJ; rw [← hcalm.status]; exact h)
            cases rr with
            | error m =>
              intro hc
              exact (nocomp _ ((h0.trans (.appendErrorData _ _ _)).trans (.globalError _ _)) hc).elim
            | ok es =>
              intro hc
              dsimp only at hc ⊢
              rcases finishTask_comp (i := w.inst) (e'.modI w.inst (fun _ => I2)) t ((I1.defn.toLinks t).length = 0) es [] with h1 | h1
              · exact (nocomp _ (h0.trans h1) hc).elim
              · by_cases hjk : j = w.inst
                · subst hjk
                  have hII : I0 = I := by have : e.insts[w.inst]? = some I0 := hI0; rw [hI] at this; cases this; rfl
                  subst hII
                  rw [h1]
                  refine finish_handed (modI_self hI1 _) hj0 (hcalm.host.trans (hhost1.trans hhst)) hne (H := H) ?_ hHo t []
                  rw [modI_ne (Ne.symm hne), outcome_other hout hne (List.getElem?_eq_some_iff.1 hH).1]
                  exact hH
                · rw [h1] at hc
                  exact (nocomp _ h0 (complete_comp hjk hc)).elim
          cases r with
          | done => exact hdone _ h
          | skip => exact hdone _ h
          | wait => exact absurd (by rw [← flowStatus_setStatus e' w.inst w.obj .waiting j]; exact h) hnj
          | fail => exact absurd (by rw [← flowStatus_setStatus e' w.inst w.obj .failed j]; exact h) hnj
          | again => exact absurd h hnj
  | cons fr rest =>
    unfold Eng.step at h ⊢
    rw [hst] at h ⊢
    cases fr with
    | release t =>
      dsimp only at h
      have : flowStatus (e.modI e.cur (fun I => I.release t)) j = some .completed := h
      rw [flowStatus_modI_same (fun I => (Calm.release I t).status)] at this
      exact absurd this hns
    | enter es =>
      cases es with
      | nil => exact absurd h hns
      | cons x xs =>
        dsimp only at h ⊢
        unfold Eng.enterEntry at h ⊢
        cases hc : e.insts[e.cur]? with
        | none => rw [hc] at h; exact absurd h hns
        | some I0 =>
          rw [hc] at h
          dsimp only at h ⊢
          have hcalm := Calm.enterTask I0 x.task
          have h0 : NoComp e (e.modI e.cur (fun _ => (I0.enterTask x.task).1)) :=
            .modI (fun J hJ h => by rw [hc] at hJ; cases hJ; rw [← hcalm.status]; exact h)
          have hI1 : (e.modI e.cur (fun _ => (I0.enterTask x.task).1)).insts[e.cur]? = some (I0.enterTask x.task).1 := modI_self hc _
          generalize (I0.enterTask x.task).1 = I1 at hcalm h0 hI1 h ⊢
          cases hres : (I0.enterTask x.task).2.2 with
          | notReady => rw [hres] at h; exact absurd (h0 _ h) hns
          | eval =>
            rw [hres] at h
            dsimp only at h
            split at h
            · exact absurd (h0 _ h) hns
            · exact absurd (h0 _ h) hns
          | skip =>
            rw [hres] at h
            dsimp only at h ⊢
            unfold Eng.taskSkipped at h ⊢
            rw [hI1] at h ⊢
            dsimp only at h ⊢
            cases hob : I1.objs[(I0.enterTask x.task).2.1]? with
            | none => rw [hob] at h; exact absurd (h0 _ h) hns
            | some ob =>
              rw [hob] at h
              dsimp only at h ⊢
              have hcs := Calm.skipTask I1 (I0.enterTask x.task).2.1 ob.task
              generalize I1.skipTask (I0.enterTask x.task).2.1 ob.task = q at hcs h ⊢
              obtain ⟨I2, es⟩ := q
              dsimp only at hcs h ⊢
              refine key _ e.cur I2 _ _ _ _ (h0.trans (.modI (fun J hJ h => by rw [hI1] at hJ; cases hJ; rw [← hcs.status]; exact h)))
                (modI_self hI1 _) ?_ h
              intro hjc
              subst hjc
              rw [hI] at hc; cases hc
              refine ⟨hcs.host.trans (hcalm.host.trans hhst), ?_⟩
              rw [modI_ne (Ne.symm hne), modI_ne (Ne.symm hne)]
              exact hH

/-- The evaluation of a task that starts a subflow. -/
theorem evalOnce_subflow (hs : Steady env i o) {e : Eng} {ob : Obj} {td : TaskDef} (ho : e.obj? i o = some ob)
    (htd : e.taskDef? i ob.task = some td) {uri : String} (hact : td.act = .subflow uri) {d : Def} (hd : env.defs uri = .ok (some d)) :
    e.evalOnce env i o = (startInstance env ((e.callState env i o ob td).newEmbedded i o uri d) (e.callState env i o ob td).insts.length
      (subflowInputs d ((((e.callState env i o ob td).obj? i o).map (·.inputs)).getD [])), .ok false) := by
  have hm2 : (e.applyInputMapper env i o td.name).2 = none := by
    unfold Eng.applyInputMapper
    split
    · rfl
    · rename_i m hm; exact absurd hm (hs.inMap _ _)
    · rfl
  have hE : e.evalOnce env i o = evalWith env (inputInterceptor env (e.applyInputMapper env i o td.name).1 i o ob) i o ob td := by
    conv => lhs; unfold Eng.evalOnce
    rw [ho]
    dsimp only
    rw [htd]
    dsimp only
    generalize e.applyInputMapper env i o td.name = q at hm2
    obtain ⟨e1, r⟩ := q
    dsimp only at hm2
    subst hm2
    rfl
  unfold Eng.callState
  generalize (e.applyInputMapper env i o td.name).1 = e1 at hE
  have hi : inputInterceptor env e1 i o ob = (e1, true) := by
    unfold Eng.inputInterceptor Eng.icpIn; rw [hs.icp]
  rw [hi] at hE
  have hmk : mocked env e1 i ob = false := by
    unfold Eng.mocked Eng.icpOut
    cases e1.insts[i]? with
    | none => rfl
    | some I => dsimp only; rw [hs.icp]
  unfold Eng.evalWith at hE
  rw [if_neg (by simp)] at hE
  dsimp only at hE
  rw [hs.inSchema] at hE
  dsimp only at hE
  rw [hmk] at hE
  rw [if_neg (by simp)] at hE
  have hc : e1.callActivity env i o ob td = (startInstance env ((e1.called i o ob.task).newEmbedded i o uri d) (e1.called i o ob.task).insts.length
      (subflowInputs d ((((e1.called i o ob.task).obj? i o).map (·.inputs)).getD [])), .ok false, false) := by
    unfold Eng.callActivity
    dsimp only
    rw [hact]
    dsimp only
    unfold Eng.startSubFlow
    rw [hd]
    rfl
  rw [hc] at hE
  exact hE

end Eng
end Flow
