import Verif.Proofs.Fail
import Verif.Props.Trace

/-!
Error handling: C04, C13, C14, C15, C16, C46, and the isolation of flow instances C24.

`Evaluates env e i o t e' (.err err)` says: the next step executes task `t` of flow instance `i`, and its evaluation
ends with the error `err` in the state `e'`.
-/

namespace Flow
open Spec

variable {env : Env}

/-! ### C04 -/

/-- C04: a failure of a task with an error link is handled locally. No flow status changes, no error handler is
started, exactly the error links are followed, and control continues with the targets of all outgoing links. -/
theorem C04_handled_locally {e e' : Eng} {i o : Nat} {t : TaskRef} {err : Err} {I : Inst}
    (hr : Reachable env e) (hI : e.insts[i]? = some I) (h : Evaluates env e i o t e' (.err err)) (hl : hasErrorLink I.defn t) :
    ∃ J es, (e.step env).insts[i]? = some J ∧ J.status = I.status ∧ J.handling = I.handling ∧ J.defn = I.defn ∧
      J.trace.filter (· = .ehStart) = I.trace.filter (· = .ehStart) ∧
      (((I.defn.toLinks t).map (·.id)).Nodup → ∀ l ∈ I.defn.toLinks t,
        lastLink J.trace l.id = if l.type = .error then .true else .false) ∧
      (e.step env).stack = [.enter es, .release t] ∧ (e.step env).cur = i ∧
      (es.map (·.task)).Perm ((I.defn.toLinks t).map (fun l => ⟨t.eh, l.dst⟩)) ∧
      (∀ j, j ≠ i → j < e.insts.length → (e.step env).insts[j]? = e.insts[j]?) := by
  obtain ⟨⟨name, hstep⟩, hstk, hoth, hin⟩ := Eng.evaluates_step h
  obtain ⟨I', ob, hI', hob, hobt, hd, hh, hst, _, _, _, _, heh⟩ := hin I hI
  rw [← hd] at hl
  obtain ⟨rows, hrows, het⟩ := errorTask_some (o := o) hl
  have hstep2 : e.step env = { e'.modI i (fun _ => (I'.errorTask o t).1.setValue ("_E." ++ t.id) (errorObj t.id err)) with
      cur := i, stack := [.enter (sortEntries (rowEntries t.eh rows)), .release t] } := by
    rw [hstep]
    simp only [Eng.handleResult, Eng.taskError, hI', het]
  have hJ : (e.step env).insts[i]? = some ((I'.errorTask o t).1.setValue ("_E." ++ t.id) (errorObj t.id err)) := by
    rw [hstep2]; exact Eng.modI_self hI' _
  have hc := Calm.errorTask I' o t
  refine ⟨_, sortEntries (rowEntries t.eh rows), hJ, hc.status.trans hst, hc.handling.trans hh, hc.defn.trans hd, ?_, ?_, ?_, ?_, ?_, ?_⟩
  · exact hc.starts.trans heh
  · intro hn l hlm
    have hok := (Eng.engOK_reachable (Eng.reachable_step hr)).ok i _ hJ
    rw [← hok.links]
    have hr2 : (if l.type = .error then (l, LinkStatus.true, 0) else (l, LinkStatus.false, 4)) ∈ rows := by
      rw [hrows, hd]; exact List.mem_map.2 ⟨l, hlm, rfl⟩
    have hnr : (rows.map (fun r => r.1.id)).Nodup := by
      rw [hrows, hd, List.map_map]
      have : ((fun r : LinkDef × LinkStatus × Nat => r.1.id) ∘
          fun l : LinkDef => if l.type = .error then (l, LinkStatus.true, 0) else (l, LinkStatus.false, 4)) = (·.id) := by
        funext l; simp only [Function.comp]; split <;> rfl
      rw [this]; exact hn
    have := Inst.applyRows_linkSt ((I'.setTaskStatus o .failed).findLinks (I'.defn.toLinks t)) rows hnr hr2
    rw [het]
    show Inst.linkSt (Inst.applyRows _ rows) l.id = _
    split at this <;> rename_i ht <;> simp only [ht, if_true, if_false] <;> exact this
  · rw [hstep2]
  · rw [hstep2]
  · refine ((sortEntries_perm _).map _).trans ?_
    rw [hrows, hd]
    simp only [rowEntries, List.map_map]
    apply List.Perm.of_eq
    apply List.map_congr_left
    intro l _
    simp only [Function.comp]
    split <;> rfl
  · intro j hj hjl
    rw [hstep2]
    show (e'.modI i _).insts[j]? = _
    rw [Eng.modI_ne (Ne.symm hj)]
    exact hoth j hj hjl

/-- A fails; error link to H, dependency link to B. -/
def guarded : Def := { name := "f", main := ⟨[tk "A", tk "B", tk "H"], [⟨0, "A", "B", .dependency, ""⟩, ⟨1, "A", "H", .error, ""⟩]⟩ }
def failA : Env := tableEnv (fun t => if t = "A" then { res := .err (.plain "boom") } else {}) (fun _ => .ok true)

-- non-trivial instance: A fails, H handles it, B is skipped, the flow completes
example : ∃ e', Evaluates failA (Eng.init failA "1" "u" guarded []) 0 0 ⟨false, "A"⟩ e' (.err (.plain "boom")) :=
  ⟨_, ⟨⟨⟨1, 0, 0⟩, rfl, rfl, rfl, rfl⟩, rfl⟩⟩
example : hasErrorLink guarded ⟨false, "A"⟩ := ⟨⟨1, "A", "H", .error, ""⟩, by decide, rfl⟩
example : flowStatus (Eng.run failA (Eng.init failA "1" "u" guarded []) 30) 0 = some .completed := by decide
example : (calls (Eng.run failA (Eng.init failA "1" "u" guarded []) 30) 0).map
    (fun ev => match ev with | .evalAct _ t => t.id | _ => "") = ["H", "A"] := by decide

/-! ### C13 -/

/-- Once the flow has failed with an error, that stays so, and no activity is called any more. -/
theorem failed_forever {e : Eng} (hr : Reachable env e) {J : Inst} {err : Err} (hJ : e.insts[0]? = some J)
    (hs : J.status = .failed) (he : J.returnError = some err) (n : Nat) :
    (∃ K, (Eng.run env e n).insts[0]? = some K ∧ K.status = .failed ∧ K.returnError = some err) ∧
      ∀ i, calls (Eng.run env e n) i = calls e i := by
  have hf : flowStatus e 0 = some .failed := by unfold flowStatus; rw [hJ]; simp [hs]
  have hst := Eng.failOK_reachable hr hf
  rw [C10_finished_is_final (Eng.engOK_reachable hr).length_pos hst (Or.inr rfl) hf n]
  exact ⟨⟨J, hJ, hs, he⟩, fun _ => rfl⟩

/-- C13: a failing task of the top-level flow that has no error link, in a flow without error handler, makes the flow
fail with exactly its error. The flow stays failed with this error and no activity is called after it. -/
theorem C13_unhandled_error {e e' : Eng} {o : Nat} {t : TaskRef} {err : Err} {I : Inst}
    (hr : Reachable env e) (hI : e.insts[0]? = some I) (h : Evaluates env e 0 o t e' (.err err))
    (hl : ¬ hasErrorLink I.defn t) (hg : I.defn.eh = none) (n : Nat) :
    (∃ K, (Eng.run env e (n + 1)).insts[0]? = some K ∧ K.status = .failed ∧ K.returnError = some err) ∧
      ∀ i, calls (Eng.run env e (n + 1)) i = calls (e.step env) i := by
  obtain ⟨⟨name, hstep⟩, hstk, _, hin⟩ := Eng.evaluates_step h
  obtain ⟨I', ob, hI', hob, hobt, hd, hh, hst, _⟩ := hin I hI
  have ha : I.status = .active := by
    have := Eng.evaluates_active h
    unfold flowStatus at this; rw [hI] at this; simpa using this
  have hnh : I'.handling = false := by
    rw [hh]
    cases hx : I.handling with
    | false => rfl
    | true => exact absurd hg (Eng.handling_reachable hr hI hx ha)
  rw [← hd] at hl hg
  have hc := Calm.errorTask I' o t
  rw [errorTask_none hl] at hc
  have h2 := Eng.taskError_noLink (o := o) hI' hl hnh err
  obtain ⟨J, hJ, h3, h4, _⟩ := Eng.globalError_top
    (Eng.appendErrorData_self (e := e'.modI 0 (fun _ => (I'.setTaskStatus o .failed).findLinks (I'.defn.toLinks t)))
      (Eng.modI_self hI' _) t.id err)
    (hc.handling.trans hnh) ((congrArg Def.eh hc.defn).trans hg) err
  have hs2 : e.step env = ((e'.modI 0 (fun _ => (I'.setTaskStatus o .failed).findLinks (I'.defn.toLinks t))).appendErrorData 0 t.id err).globalError 0 err := by
    rw [hstep]; exact h2
  rw [← hs2] at hJ
  rw [Eng.run_succ']
  exact failed_forever (Eng.reachable_step hr) hJ h3 h4 n

-- non-trivial instance: the second task of a chain fails
def chain : Def := { name := "f", main := ⟨[tk "A", tk "B", tk "C"], deps 0 [("A", "B"), ("B", "C")]⟩ }

example : ∃ e o e', Reachable failing e ∧ Evaluates failing e 0 o ⟨false, "B"⟩ e' (.err (.plain "boom")) ∧
    e = Eng.run failing (Eng.init failing "1" "u" chain []) 4 :=
  ⟨_, 1, _, ⟨"1", "u", chain, [], 4, rfl⟩, ⟨⟨⟨2, 0, 1⟩, rfl, rfl, rfl, rfl⟩, rfl⟩, rfl⟩
example : ¬ hasErrorLink chain ⟨false, "B"⟩ := by
  rintro ⟨l, h1, h2⟩
  simp [chain, Def.toLinks, Def.graph, Graph.toLinks, deps] at h1
  subst h1; cases h2

/-! ### C14 -/

/-- The start tasks of the error handler: its tasks without incoming link. -/
def HandlerStart (g : Graph) (x : TaskRef) : Prop := x.eh = true ∧ (∃ td ∈ g.tasks, td.id = x.id) ∧ ∀ l ∈ g.links, l.dst ≠ x.id

theorem mem_startEntries {d : Def} {g : Graph} (hg : d.eh = some g) (x : TaskRef) :
    x ∈ (Inst.startEntries d true).map (·.task) ↔ HandlerStart g x := by
  simp only [Inst.startEntries, Def.graph, hg, Option.getD_some, List.map_map, List.mem_map, List.mem_filter, Def.fromLinks,
    Graph.fromLinks, Function.comp, HandlerStart]
  constructor
  · rintro ⟨td, ⟨h1, h2⟩, rfl⟩
    refine ⟨rfl, ⟨td, h1, rfl⟩, fun l hl hc => ?_⟩
    simp only [decide_eq_true_eq, List.length_eq_zero_iff, List.filter_eq_nil_iff] at h2
    exact h2 l hl hc
  · rintro ⟨h1, ⟨td, h2, h3⟩, h4⟩
    refine ⟨td, ⟨h2, ?_⟩, ?_⟩
    · simp only [decide_eq_true_eq, List.length_eq_zero_iff, List.filter_eq_nil_iff]
      intro l hl hc
      exact h4 l hl (h3 ▸ hc)
    · cases x; simp_all

/-- C14: if a task fails without error link and its flow has an error handler and is not handling an error already, the
error handler is started: control continues with exactly its start tasks, the flow keeps its status, and the error is
available to them as `_E` and `_E.<task>`. -/
theorem C14_handler_started {e e' : Eng} {i o : Nat} {t : TaskRef} {err : Err} {I : Inst} {g : Graph}
    (hI : e.insts[i]? = some I) (h : Evaluates env e i o t e' (.err err))
    (hl : ¬ hasErrorLink I.defn t) (hg : I.defn.eh = some g) (hh : I.handling = false) :
    ∃ J es, (e.step env).insts[i]? = some J ∧ J.status = I.status ∧ J.handling = true ∧
      (e.step env).cur = i ∧ (e.step env).stack = [.enter es] ∧ (∀ x, x ∈ es.map (·.task) ↔ HandlerStart g x) ∧
      J.attrs.get? "_E" = some (errorObj t.id err) ∧ J.attrs.get? ("_E." ++ t.id) = some (errorObj t.id err) ∧
      (J.trace.filter (· = .ehStart)).length = (I.trace.filter (· = .ehStart)).length + 1 := by
  obtain ⟨⟨name, hstep⟩, hstk, _, hin⟩ := Eng.evaluates_step h
  obtain ⟨I', ob, hI', hob, hobt, hd, hhd, hst, _, _, _, _, heh⟩ := hin I hI
  have hnh : I'.handling = false := hhd.trans hh
  rw [← hd] at hl hg
  have hc := Calm.errorTask I' o t
  rw [errorTask_none hl] at hc
  let I2 := (((I'.setTaskStatus o .failed).findLinks (I'.defn.toLinks t)).setValue "_E" (errorObj t.id err)).setValue ("_E." ++ t.id) (errorObj t.id err)
  let e2 := (e'.modI i (fun _ => (I'.setTaskStatus o .failed).findLinks (I'.defn.toLinks t))).appendErrorData i t.id err
  have hI2 : e2.insts[i]? = some I2 := Eng.appendErrorData_self (Eng.modI_self hI' _) t.id err
  have hs2 : e.step env = e2.globalError i err := by
    rw [hstep]; exact Eng.taskError_noLink (o := o) hI' hl hnh err
  have hd2 : I2.defn = I'.defn := hc.defn
  rw [Eng.globalError_handler hI2 (hc.handling.trans hnh) (by rw [hd2]; exact hg) err] at hs2
  have hget := setErr_get ((I'.setTaskStatus o .failed).findLinks (I'.defn.toLinks t)) t.id (errorObj t.id err)
  have hJ : ∃ J, (e.step env).insts[i]? = some J ∧ J.status = I2.status ∧ J.handling = true ∧ J.attrs = I2.attrs ∧
      J.trace.filter (· = .ehStart) = .ehStart :: I2.trace.filter (· = .ehStart) := by
    rw [hs2]
    by_cases hi : i = 0
    · subst hi
      refine ⟨{ I2.clearTasks with handling := true, trace := .ehStart :: .cleared :: I2.trace }, ?_, rfl, rfl, rfl, by simp⟩
      have h9 : (e2.modI 0 (fun J => J.clearTasks)).insts[0]? = some I2.clearTasks := Eng.modI_self hI2 _
      exact Eng.modI_self h9 _
    · refine ⟨{ I2 with handling := true, trace := .ehStart :: I2.trace }, ?_, rfl, rfl, rfl, by simp⟩
      have h9 : (e2.modI 0 (fun J => J.clearTasks)).insts[i]? = some I2 := by
        rw [Eng.modI_ne (Ne.symm hi)]; exact hI2
      exact Eng.modI_self h9 _
  obtain ⟨J, hJ, h5, h6, h7, h8⟩ := hJ
  refine ⟨J, Inst.startEntries I2.defn true, hJ, ?_, h6, ?_, ?_, ?_, ?_, ?_, ?_⟩
  · rw [h5]; exact hc.status.trans hst
  · rw [hs2]
  · rw [hs2]
  · intro x
    rw [hd2]
    exact mem_startEntries hg x
  · rw [h7]; exact hget.1
  · rw [h7]; exact hget.2
  · rw [h8]
    have h9 : I2.trace.filter (· = .ehStart) = I.trace.filter (· = .ehStart) := hc.starts.trans heh
    rw [h9]; rfl

/-- A flow whose only task fails, with an error handler of one task. -/
def handled : Def := { name := "f", main := ⟨[tk "A"], []⟩, eh := some ⟨[tk "H"], []⟩ }

-- non-trivial instance: A fails, the error handler runs and the flow completes
example : ∃ e', Evaluates failA (Eng.init failA "1" "u" handled []) 0 0 ⟨false, "A"⟩ e' (.err (.plain "boom")) :=
  ⟨_, ⟨⟨⟨1, 0, 0⟩, rfl, rfl, rfl, rfl⟩, rfl⟩⟩
example : HandlerStart ⟨[tk "H"], []⟩ ⟨true, "H"⟩ := ⟨rfl, ⟨tk "H", by simp, rfl⟩, by simp⟩
example : flowStatus (Eng.run failA (Eng.init failA "1" "u" handled []) 30) 0 = some .completed := by decide

/-! ### C15 -/

/-- C15, part: if a task fails without error link while its flow is handling an error, the flow becomes Failed; for a
subflow the task that started it gets the error and is scheduled; for the top-level flow the error is stored as `_E`.
What is missing: the top-level flow does not return the error, see `C15_negation`. -/
theorem C15_failure_in_handler_partial {e e' : Eng} {i o : Nat} {t : TaskRef} {err : Err} {I : Inst}
    (hr : Reachable env e) (hI : e.insts[i]? = some I) (h : Evaluates env e i o t e' (.err err))
    (hl : ¬ hasErrorLink I.defn t) (hh : I.handling = true) :
    flowStatus (e.step env) i = some .failed ∧
      (i = 0 → ∃ J, (e.step env).insts[0]? = some J ∧ J.attrs.get? "_E" = some (errorObj t.id err)) ∧
      (i ≠ 0 → ∃ hi ho hob, I.host = some (hi, ho) ∧ (e.step env).obj? hi ho = some hob ∧ hob.returnError = some err ∧
        ∃ w ∈ (e.step env).queue, w.inst = hi ∧ w.obj = ho) := by
  obtain ⟨⟨name, hstep⟩, hstk, hoth, hin⟩ := Eng.evaluates_step h
  obtain ⟨I', ob, hI', hob, hobt, hd, hhd, hst, hhost, _, _, _, heh⟩ := hin I hI
  rw [← hd] at hl
  have hc := Calm.errorTask I' o t
  rw [errorTask_none hl] at hc
  let I1 := (I'.setTaskStatus o .failed).findLinks (I'.defn.toLinks t)
  have hs1 : e.step env = (if i = 0 then ((e'.modI i (fun _ => I1)).modI i (fun J => J.setFlowStatus .failed)).appendErrorData i t.id err
      else ((e'.modI i (fun _ => I1)).modI i (fun J => J.setFlowStatus .failed)).failHost i err) := by
    rw [hstep]
    simp only [Eng.handleResult, Eng.taskError, hI', errorTask_none hl, hhd.trans hh, if_true, I1]
  have h1 : ((e'.modI i (fun _ => I1)).modI i (fun J => J.setFlowStatus .failed)).insts[i]? = some (I1.setFlowStatus .failed) :=
    Eng.modI_self (Eng.modI_self hI' _) _
  by_cases hi0 : i = 0
  · subst hi0
    rw [if_pos rfl] at hs1
    have h2 := Eng.appendErrorData_self h1 t.id err
    rw [← hs1] at h2
    refine ⟨?_, fun _ => ⟨_, h2, (setErr_get _ _ _).1⟩, fun hc => absurd rfl hc⟩
    unfold flowStatus; rw [h2]; rfl
  · rw [if_neg hi0] at hs1
    have hfh : ∀ hi ho, I.host = some (hi, ho) → e.step env =
        (((e'.modI i (fun _ => I1)).modI i (fun J => J.setFlowStatus .failed)).modI hi
          (fun H => H.modO ho (fun x => { x with returnError := some err }))).schedule hi ho := by
      intro hi ho hho
      rw [hs1]
      unfold Eng.failHost
      rw [h1]
      have : (I1.setFlowStatus .failed).host = some (hi, ho) := (hc.host.trans hhost).trans hho
      dsimp only
      rw [this]
    refine ⟨?_, fun hc => absurd hc hi0, ?_⟩
    · cases hho : I.host with
      | none =>
        have : (I1.setFlowStatus .failed).host = none := (hc.host.trans hhost).trans hho
        have h3 : e.step env = (e'.modI i (fun _ => I1)).modI i (fun J => J.setFlowStatus .failed) := by
          rw [hs1]; unfold Eng.failHost; rw [h1]; dsimp only; rw [this]
        unfold flowStatus; rw [h3, h1]; rfl
      | some p =>
        obtain ⟨hi, ho⟩ := p
        rw [hfh hi ho hho]
        show flowStatus (Eng.modI _ hi _) i = _
        rw [Eng.flowStatus_modI_same (h := by intros; rfl)]
        unfold flowStatus; rw [h1]; rfl
    · intro _
      obtain ⟨hi, ho, hho, hlt2, H, hob2, hH, hHo, _⟩ := (Eng.engOK_reachable hr).hosts i I hI hi0
      have hne : hi ≠ i := by omega
      have hlt : hi < e.insts.length := (List.getElem?_eq_some_iff.1 hH).1
      have h4 : ((e'.modI i (fun _ => I1)).modI i (fun J => J.setFlowStatus .failed)).insts[hi]? = some H := by
        rw [Eng.modI_ne (Ne.symm hne), Eng.modI_ne (Ne.symm hne), hoth hi hne hlt]; exact hH
      have h5 : (e.step env).insts[hi]? = some (H.modO ho (fun x => { x with returnError := some err })) := by
        rw [hfh hi ho hho]; exact Eng.modI_self h4 _
      refine ⟨hi, ho, { hob2 with returnError := some err }, hho, ?_, rfl, ?_⟩
      · rw [Eng.obj?_eq h5]
        simp [Inst.modO, hHo]
      · rw [hfh hi ho hho]
        exact ⟨_, List.mem_append_right _ (List.mem_singleton.2 rfl), rfl, rfl⟩

/-- A and the error handler task H both fail. -/
def failAH : Env := tableEnv (fun t => { res := .err (.plain t) }) (fun _ => .ok true)
/-- The state in which H is about to be executed. -/
def inHandler : Eng := Eng.run failAH (Eng.init failAH "1" "u" handled []) 3

example : ∃ e', Evaluates failAH inHandler 0 1 ⟨true, "H"⟩ e' (.err (.plain "H")) := ⟨_, ⟨⟨⟨2, 0, 1⟩, rfl, rfl, rfl, rfl⟩, rfl⟩⟩

/-- C15 does not hold: when a task of the error handler of a top-level flow fails, the flow fails but its return error is
not set, so that the caller is not told. -/
theorem C15_negation : ¬ ∀ (env : Env) (e e' : Eng) (o : Nat) (t : TaskRef) (err : Err) (I : Inst), Reachable env e →
    e.insts[0]? = some I → Evaluates env e 0 o t e' (.err err) → ¬ hasErrorLink I.defn t → I.handling = true →
    ∃ J, (e.step env).insts[0]? = some J ∧ J.returnError ≠ none := by
  intro hall
  obtain ⟨I, hI⟩ : ∃ I, inHandler.insts[0]? = some I := ⟨_, rfl⟩
  have hI2 := hI
  have hd : I.defn = handled := by
    have : (inHandler.insts[0]?).map (·.defn) = some handled := rfl
    rw [hI] at this; simpa using this
  have hh : I.handling = true := by
    have : (inHandler.insts[0]?).map (·.handling) = some true := rfl
    rw [hI] at this; simpa using this
  obtain ⟨J, hJ, hne⟩ := hall failAH inHandler _ 1 ⟨true, "H"⟩ (.plain "H") I ⟨"1", "u", handled, [], 3, rfl⟩ hI
    ⟨⟨⟨2, 0, 1⟩, rfl, rfl, rfl, rfl⟩, rfl⟩
    (by rw [hd]; rintro ⟨l, h1, _⟩; simp [handled, Def.toLinks, Def.graph, Graph.toLinks] at h1) hh
  have : ((inHandler.step failAH).insts[0]?).map (·.returnError) = some none := rfl
  rw [hJ] at this
  simp at this
  exact hne this

example : flowStatus (Eng.run failAH (Eng.init failAH "1" "u" handled []) 30) 0 = some .failed := by decide

/-! ### C24 -/

/-- C24: a step executes one flow instance; all other instances keep their attributes, status, return values and error
state, and none of their activities is called. A new subflow may be added. -/
theorem C24_only_actor_changes {e : Eng} (hr : Reachable env e) {j : Nat} {I : Inst} (hj : j ≠ actor env e)
    (hI : e.insts[j]? = some I) :
    ∃ I', (e.step env).insts[j]? = some I' ∧ I'.attrs = I.attrs ∧ I'.status = I.status ∧ I'.handling = I.handling ∧
      I'.returnData = I.returnData ∧ I'.returnError = I.returnError ∧
      I'.trace.filter isCall = I.trace.filter isCall := by
  obtain ⟨I', h1, h2⟩ := (Eng.Ops.step (env := env) (Eng.engOK_reachable hr).length_pos).others j I hj hI
  exact ⟨I', h1, h2.attrs, h2.status, h2.handling, h2.returnData, h2.returnError, h2.calls⟩

/-! ### C16 -/

/-- C16, part: starting the error handler of one flow instance leaves every other instance unchanged, except that the
task table of the top-level instance is emptied (`clearTasks`). What is missing: the top-level instance, see `C16_negation`. -/
theorem C16_others_unchanged_partial {e e' : Eng} {i o : Nat} {t : TaskRef} {err : Err} {I : Inst} {g : Graph}
    (hI : e.insts[i]? = some I) (h : Evaluates env e i o t e' (.err err))
    (hl : ¬ hasErrorLink I.defn t) (hg : I.defn.eh = some g) (hh : I.handling = false)
    {j : Nat} {J : Inst} (hji : j ≠ i) (hJ : e.insts[j]? = some J) :
    (j ≠ 0 → (e.step env).insts[j]? = some J) ∧ (j = 0 → (e.step env).insts[j]? = some J.clearTasks) := by
  obtain ⟨⟨name, hstep⟩, hstk, hoth, hin⟩ := Eng.evaluates_step h
  obtain ⟨I', ob, hI', hob, hobt, hd, hhd, hst, _, _, _, _, heh⟩ := hin I hI
  have hnh : I'.handling = false := hhd.trans hh
  rw [← hd] at hl hg
  have hc := Calm.errorTask I' o t
  rw [errorTask_none hl] at hc
  let I2 := (((I'.setTaskStatus o .failed).findLinks (I'.defn.toLinks t)).setValue "_E" (errorObj t.id err)).setValue ("_E." ++ t.id) (errorObj t.id err)
  let e2 := (e'.modI i (fun _ => (I'.setTaskStatus o .failed).findLinks (I'.defn.toLinks t))).appendErrorData i t.id err
  have hI2 : e2.insts[i]? = some I2 := Eng.appendErrorData_self (Eng.modI_self hI' _) t.id err
  have hs2 : e.step env = e2.globalError i err := by
    rw [hstep]; exact Eng.taskError_noLink (o := o) hI' hl hnh err
  have hd2 : I2.defn = I'.defn := hc.defn
  rw [Eng.globalError_handler hI2 (hc.handling.trans hnh) (by rw [hd2]; exact hg) err] at hs2
  have hjl : j < e.insts.length := (List.getElem?_eq_some_iff.1 hJ).1
  have h3 : e2.insts[j]? = some J := by
    show ((e'.modI i _).modI i _).insts[j]? = some J
    rw [Eng.modI_ne (Ne.symm hji), Eng.modI_ne (Ne.symm hji), hoth j hji hjl]; exact hJ
  have h4 : (e.step env).insts[j]? = (e2.modI 0 (fun J => J.clearTasks)).insts[j]? := by
    rw [hs2]; exact Eng.modI_ne (Ne.symm hji) _
  constructor
  · intro hj0
    rw [h4, Eng.modI_ne (Ne.symm hj0)]; exact h3
  · intro hj0
    subst hj0
    rw [h4]; exact Eng.modI_self h3 _

/-- A subflow whose task X fails and whose error handler has one task. -/
def subHandled : Def := { name := "s", main := ⟨[tk "X"], []⟩, eh := some ⟨[tk "H"], []⟩ }
/-- A subflow of four tasks in a row. -/
def subLong : Def := { name := "l", main := ⟨[tk "P", tk "Q", tk "R", tk "S"], deps 0 [("P", "Q"), ("Q", "R"), ("R", "S")]⟩ }
/-- Two independent tasks, each starting one of these subflows. -/
def twoSubs : Def :=
  { name := "f", main := ⟨[{ tk "A" with act := .subflow "s" }, { tk "B" with act := .subflow "l" }], []⟩ }
def failX : Env :=
  { tableEnv (fun t => if t = "X" then { res := .err (.plain "boom") } else {}) (fun _ => .ok true) with
    defs := fun u => if u = "s" then .ok (some subHandled) else if u = "l" then .ok (some subLong) else .ok none }
/-- The run of `twoSubs`. -/
def twoSubsRun (n : Nat) : Eng := Eng.run failX (Eng.init failX "1" "u" twoSubs []) n

/-- C16 does not hold: with the items taken in order, the top-level flow `twoSubs` becomes Completed although the subflow
started by B is still active and its last two tasks are never executed. The error handler of the other subflow has made the
top-level flow forget that B is pending. -/
theorem C16_negation : flowStatus (twoSubsRun 40) 0 = some .completed ∧ flowStatus (twoSubsRun 40) 2 = some .active ∧
    (calls (twoSubsRun 40) 2).map (fun ev => match ev with | .evalAct _ t => t.id | _ => "") = ["Q", "P"] := by
  decide

end Flow
