import Verif.Proofs.Ops

/-
The step that evaluates a task, in terms of the state left by the evaluation; link statuses after a transition.
-/

namespace Flow
open Spec

namespace Inst

theorem linkSt_setLink (I : Inst) (k : LinkId) (s : LinkStatus) (l : LinkId) :
    (I.setLink k s).linkSt l = if k = l then s else I.linkSt l := by
  simp only [linkSt, setLink, AMap.get?_set]
  split <;> simp

theorem applyRows_linkSt_ne (I : Inst) (rows : List (LinkDef × LinkStatus × Nat)) (l : LinkId)
    (h : ∀ r ∈ rows, r.1.id ≠ l) : (I.applyRows rows).linkSt l = I.linkSt l := by
  unfold applyRows
  induction rows generalizing I with
  | nil => rfl
  | cons r rs ih =>
    simp only [List.foldl_cons]
    rw [ih _ (fun r' hr' => h r' (List.mem_cons_of_mem _ hr')), linkSt_setLink, if_neg (h r (List.mem_cons_self ..))]

theorem applyRows_linkSt (I : Inst) (rows : List (LinkDef × LinkStatus × Nat)) (hn : (rows.map (fun r => r.1.id)).Nodup)
    {r : LinkDef × LinkStatus × Nat} (hr : r ∈ rows) : (I.applyRows rows).linkSt r.1.id = r.2.1 := by
  induction rows generalizing I with
  | nil => cases hr
  | cons x xs ih =>
    simp only [List.map_cons, List.nodup_cons] at hn
    have hstep : I.applyRows (x :: xs) = (I.setLink x.1.id x.2.1).applyRows xs := rfl
    rw [hstep]
    rcases List.mem_cons.1 hr with h | h
    · subst h
      rw [applyRows_linkSt_ne, linkSt_setLink, if_pos rfl]
      intro r' hr' hc
      exact hn.1 (hc ▸ List.mem_map.2 ⟨r', hr', rfl⟩)
    · exact ih _ hn.2 h

end Inst

namespace Eng

variable {env : Env}

theorem evaluates_step {e e' : Eng} {i o : Nat} {t : TaskRef} {r : EvalOut} (h : Evaluates env e i o t e' r) :
    (∃ name, e.step env = handleResult env e' i o t name r) ∧ e'.stack = [] ∧
      (∀ j, j ≠ i → j < e.insts.length → e'.insts[j]? = e.insts[j]?) ∧
      ∀ I, e.insts[i]? = some I → ∃ I' ob, e'.insts[i]? = some I' ∧ I'.objs[o]? = some ob ∧ ob.task = t ∧
        I'.defn = I.defn ∧ I'.handling = I.handling ∧ I'.status = I.status ∧ I'.host = I.host ∧ I'.tasks = I.tasks ∧
        I'.links = I.links ∧ I'.subflowId = I.subflowId ∧
        I'.trace.filter (· = .ehStart) = I.trace.filter (· = .ehStart) := by
  obtain ⟨⟨w, hn, hwi, hwo, hout⟩, htask⟩ := h
  subst hwi; subst hwo
  have hstep := step_next hn
  cases ho : e.obj? w.inst w.obj with
  | none => rw [ho] at htask; cases htask
  | some ob =>
    rw [ho] at htask
    simp only [Option.map_some, Option.some.injEq] at htask
    have ho' : (afterPop env e w).obj? w.inst w.obj = some ob := ho
    obtain ⟨td, htd, hex⟩ := exec_outcome ho' hout
    refine ⟨⟨td.name, by rw [hstep, hex, htask]⟩, ?_, ?_, ?_⟩
    · rw [(outcome_ctl hout).1]; exact (next_some hn).1
    · intro j hj hl
      exact outcome_other hout hj hl
    · intro I hI
      obtain ⟨I', h1, h2, h3, h4, h5, h6, h7, h8, _, h10⟩ := outcome_inst hout (I := I) hI
      obtain ⟨I0, hI0, hob⟩ := obj?_some ho
      rw [hI] at hI0; cases hI0
      obtain ⟨ob', h11, h12⟩ := h10 _ _ hob
      exact ⟨I', ob', h1, h11, h12.trans htask, h2, h3, h4, h5, h8, h7, h6, outcome_starts hout hI h1⟩

theorem evaluates_active {e e' : Eng} {i o : Nat} {t : TaskRef} {r : EvalOut} (h : Evaluates env e i o t e' r) :
    flowStatus e 0 = some .active := by
  obtain ⟨⟨w, hn, _⟩, _⟩ := h
  exact (next_some hn).2.1

end Eng

/-- The error links decide: no error link, no rows. -/
theorem errorRows_none {d : Def} {t : TaskRef} (h : ¬ hasErrorLink d t) : errorRows (d.toLinks t) = none := by
  unfold errorRows
  rw [if_neg]
  simp only [List.any_eq_true, decide_eq_true_eq]
  exact h

theorem errorRows_some {d : Def} {t : TaskRef} (h : hasErrorLink d t) :
    errorRows (d.toLinks t) =
      some ((d.toLinks t).map (fun l => if l.type = .error then (l, .true, 0) else (l, .false, 4))) := by
  obtain ⟨l, h1, h2⟩ := h
  unfold errorRows
  rw [if_pos]
  simp only [List.any_eq_true, decide_eq_true_eq]
  exact ⟨l, h1, h2⟩

theorem errorTask_none {I : Inst} {o : Nat} {t : TaskRef} (h : ¬ hasErrorLink I.defn t) :
    I.errorTask o t = ((I.setTaskStatus o .failed).findLinks (I.defn.toLinks t), none) := by
  unfold Inst.errorTask
  simp [errorRows_none h]

theorem errorTask_some {I : Inst} {o : Nat} {t : TaskRef} (h : hasErrorLink I.defn t) :
    ∃ rows, rows = (I.defn.toLinks t).map (fun l => if l.type = .error then (l, LinkStatus.true, 0) else (l, LinkStatus.false, 4)) ∧
      I.errorTask o t = (((I.setTaskStatus o .failed).findLinks (I.defn.toLinks t)).applyRows rows,
        some (sortEntries (rowEntries t.eh rows))) := by
  refine ⟨_, rfl, ?_⟩
  unfold Inst.errorTask
  simp [errorRows_some h]

end Flow

namespace Flow
open Spec
namespace Eng

variable {env : Env}

theorem run_succ' (env : Env) (e : Eng) (n : Nat) : Eng.run env e (n + 1) = Eng.run env (e.step env) n := by
  induction n with
  | zero => rfl
  | succ n ih => rw [Eng.run, ih]; rfl

theorem run_add (env : Env) (e : Eng) (m n : Nat) : Eng.run env e (m + n) = Eng.run env (Eng.run env e m) n := by
  induction n with
  | zero => rfl
  | succ n ih => rw [Nat.add_succ, Eng.run, ih]; rfl

/-- `globalError` without error handler, top level. -/
theorem globalError_top {e : Eng} {I : Inst} (hI : e.insts[0]? = some I) (hh : I.handling = false) (hg : I.defn.eh = none)
    (err : Err) : ∃ J, (e.globalError 0 err).insts[0]? = some J ∧ J.status = .failed ∧ J.returnError = some err ∧
      J.attrs = I.attrs ∧ (e.globalError 0 err).stack = e.stack := by
  have h1 : e.globalError 0 err = e.modI 0 (fun J => { ({ J with handling := true }.setFlowStatus .failed) with returnError := some err }) := by
    unfold Eng.globalError
    rw [hI]
    simp only [hh, hg, Bool.false_eq_true, if_false, if_true]
    rw [modI_modI, modI_modI]
  rw [h1]
  exact ⟨_, modI_self hI _, rfl, rfl, rfl, rfl⟩

/-- `globalError` with an error handler. -/
theorem globalError_handler {e : Eng} {i : Nat} {I : Inst} {g : Graph} (hI : e.insts[i]? = some I) (hh : I.handling = false)
    (hg : I.defn.eh = some g) (err : Err) :
    e.globalError i err = { (e.modI 0 (fun J => J.clearTasks)).modI i
        (fun J => { J with handling := true, trace := .ehStart :: J.trace }) with
      cur := i, stack := [.enter (Inst.startEntries I.defn true)] } := by
  unfold Eng.globalError
  rw [hI]
  simp only [hh, hg]
  rw [← globalError_comm]
  rfl

theorem appendErrorData_self {e : Eng} {i : Nat} {I : Inst} (hI : e.insts[i]? = some I) (t : TaskId) (err : Err) :
    (e.appendErrorData i t err).insts[i]? =
      some ((I.setValue "_E" (errorObj t err)).setValue ("_E." ++ t) (errorObj t err)) := modI_self hI _

theorem taskError_noLink {e : Eng} {i o : Nat} {t : TaskRef} {I : Inst} (hI : e.insts[i]? = some I) (hl : ¬ hasErrorLink I.defn t)
    (hh : I.handling = false) (err : Err) :
    e.taskError i o t err = ((e.modI i (fun _ => (I.setTaskStatus o .failed).findLinks (I.defn.toLinks t))).appendErrorData i t.id err).globalError i err := by
  unfold Eng.taskError
  rw [hI]
  simp only [errorTask_none hl, hh]
  rfl

end Eng

theorem errKey_ne (t : TaskId) : "_E." ++ t ≠ "_E" := by
  intro h
  have h2 := congrArg (fun s : String => s.toList.length) h
  simp at h2

/-- The flow-wide and the task's error object after `appendErrorData`. -/
theorem setErr_get (I : Inst) (t : TaskId) (v : Val) :
    ((I.setValue "_E" v).setValue ("_E." ++ t) v).attrs.get? "_E" = some v ∧
    ((I.setValue "_E" v).setValue ("_E." ++ t) v).attrs.get? ("_E." ++ t) = some v := by
  constructor
  · simp only [Inst.setValue]
    rw [AMap.get?_set_ne _ _ (errKey_ne t), AMap.get?_set_self]
  · simp only [Inst.setValue]
    rw [AMap.get?_set_self]

end Flow
