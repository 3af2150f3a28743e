import Verif.Proofs.Fail

/-
The parts of an evaluation around the call of the activity: mappers, interceptors, accumulation and the bookkeeping of
retries and loops change nothing but attributes and the data of the task instance (`LocalE`). What one evaluation of an
activity does is described by `Once`.
-/

namespace Flow
open Spec

/-- Only attributes and the data of task object `o` differ; with `k = true` not even its working data. -/
structure LocalInst (k : Bool) (o : Nat) (I I' : Inst) : Prop where
  defn : I'.defn = I.defn
  uri : I'.uri = I.uri
  subflowId : I'.subflowId = I.subflowId
  host : I'.host = I.host
  handling : I'.handling = I.handling
  status : I'.status = I.status
  tasks : I'.tasks = I.tasks
  links : I'.links = I.links
  force : I'.force = I.force
  returnData : I'.returnData = I.returnData
  returnError : I'.returnError = I.returnError
  trace : I'.trace = I.trace
  core : ∀ p : Nat, (I'.objs[p]?).map (fun x : Obj => (x.task, x.status, x.returnError)) =
    (I.objs[p]?).map (fun x : Obj => (x.task, x.status, x.returnError))
  other : ∀ p : Nat, p ≠ o → I'.objs[p]? = I.objs[p]?
  work : k = true → ∀ p : Nat, (I'.objs[p]?).map (·.work) = (I.objs[p]?).map (·.work)

namespace LocalInst

theorem refl (k : Bool) (o : Nat) (I : Inst) : LocalInst k o I I :=
  ⟨rfl, rfl, rfl, rfl, rfl, rfl, rfl, rfl, rfl, rfl, rfl, rfl, fun _ => rfl, fun _ _ => rfl, fun _ _ => rfl⟩

theorem trans {k : Bool} {o : Nat} {I J K : Inst} (h : LocalInst k o I J) (g : LocalInst k o J K) : LocalInst k o I K :=
  ⟨g.defn.trans h.defn, g.uri.trans h.uri, g.subflowId.trans h.subflowId, g.host.trans h.host, g.handling.trans h.handling,
    g.status.trans h.status, g.tasks.trans h.tasks, g.links.trans h.links, g.force.trans h.force,
    g.returnData.trans h.returnData, g.returnError.trans h.returnError, g.trace.trans h.trace,
    fun p => (g.core p).trans (h.core p), fun p hp => (g.other p hp).trans (h.other p hp),
    fun hk p => (g.work hk p).trans (h.work hk p)⟩

theorem attrs {k : Bool} {o : Nat} {I : Inst} (a : AMap String Val) : LocalInst k o I { I with attrs := a } :=
  ⟨rfl, rfl, rfl, rfl, rfl, rfl, rfl, rfl, rfl, rfl, rfl, rfl, fun _ => rfl, fun _ _ => rfl, fun _ _ => rfl⟩

theorem setValue {k : Bool} {o : Nat} {I : Inst} (a : String) (v : Val) : LocalInst k o I (I.setValue a v) := attrs _

theorem modO {k : Bool} {o : Nat} {I : Inst} (f : Obj → Obj)
    (h : ∀ x, (f x).task = x.task ∧ (f x).status = x.status ∧ (f x).returnError = x.returnError)
    (hw : k = true → ∀ x, (f x).work = x.work) :
    LocalInst k o I (I.modO o f) := by
  refine ⟨rfl, rfl, rfl, rfl, rfl, rfl, rfl, rfl, rfl, rfl, rfl, rfl, fun p => ?_, fun p hp => ?_, fun hk p => ?_⟩
  · simp only [Inst.modO, List.getElem?_modify]
    split
    · cases I.objs[p]? with
      | none => rfl
      | some x => simp [h x]
    · simp
  · simp only [Inst.modO, List.getElem?_modify]
    have : ¬ o = p := fun h => hp h.symm
    simp [this]
  · simp only [Inst.modO, List.getElem?_modify]
    split
    · cases I.objs[p]? with
      | none => rfl
      | some x => simp [hw hk x]
    · simp

theorem weaken {k : Bool} {o : Nat} {I I' : Inst} (h : LocalInst true o I I') : LocalInst k o I I' :=
  ⟨h.defn, h.uri, h.subflowId, h.host, h.handling, h.status, h.tasks, h.links, h.force, h.returnData, h.returnError, h.trace,
    h.core, h.other, fun _ => h.work rfl⟩

end LocalInst

namespace Eng

/-- `e'` differs from `e` in instance `i` only, as described by `LocalInst`. -/
def LocalE (k : Bool) (i o : Nat) (e e' : Eng) : Prop := ∃ f : Inst → Inst, e' = e.modI i f ∧ ∀ I, LocalInst k o I (f I)

variable {env : Env} {k : Bool} {i o : Nat}

theorem modI_id (e : Eng) (i : Nat) : e.modI i (fun I => I) = e := by
  unfold modI
  cases e
  simp only [Eng.mk.injEq, and_true, true_and]
  apply List.ext_getElem?
  intro n
  rw [List.getElem?_modify]
  split <;> simp

theorem LocalE.refl (k : Bool) (i o : Nat) (e : Eng) : LocalE k i o e e := ⟨fun I => I, (modI_id e i).symm, fun I => .refl k o I⟩

theorem LocalE.trans {e f g : Eng} (h : LocalE k i o e f) (h' : LocalE k i o f g) : LocalE k i o e g := by
  obtain ⟨a, rfl, ha⟩ := h
  obtain ⟨b, rfl, hb⟩ := h'
  exact ⟨fun I => b (a I), modI_modI _ _ _ _, fun I => (ha I).trans (hb _)⟩

theorem LocalE.mk' (e : Eng) (f : Inst → Inst) (h : ∀ I, LocalInst k o I (f I)) : LocalE k i o e (e.modI i f) := ⟨f, rfl, h⟩

theorem LocalE.inst {e e' : Eng} (h : LocalE k i o e e') {I : Inst} (hI : e.insts[i]? = some I) :
    ∃ I', e'.insts[i]? = some I' ∧ LocalInst k o I I' := by
  obtain ⟨f, rfl, hf⟩ := h
  exact ⟨_, modI_self hI f, hf I⟩

theorem LocalE.other {e e' : Eng} (h : LocalE k i o e e') {j : Nat} (hj : j ≠ i) : e'.insts[j]? = e.insts[j]? := by
  obtain ⟨f, rfl, hf⟩ := h
  exact modI_ne (Ne.symm hj) f

theorem LocalE.length {e e' : Eng} (h : LocalE k i o e e') : e'.insts.length = e.insts.length := by
  obtain ⟨f, rfl, hf⟩ := h
  simp

theorem LocalE.rest {e e' : Eng} (h : LocalE k i o e e') : e'.queue = e.queue ∧ e'.stack = e.stack ∧ e'.cur = e.cur ∧
    e'.replies = e.replies ∧ e'.qlog = e.qlog ∧ e'.stepID = e.stepID ∧ e'.subflowCtr = e.subflowCtr ∧
    e'.wiCounter = e.wiCounter ∧ e'.subflows = e.subflows ∧ e'.id = e.id := by
  obtain ⟨f, rfl, hf⟩ := h
  exact ⟨rfl, rfl, rfl, rfl, rfl, rfl, rfl, rfl, rfl, rfl⟩

/-- The task object is still there, with the same task, status and return error. -/
theorem LocalE.obj {e e' : Eng} (h : LocalE k i o e e') : (e'.obj? i o).map (fun x => (x.task, x.status, x.returnError)) =
    (e.obj? i o).map (fun x => (x.task, x.status, x.returnError)) := by
  obtain ⟨f, rfl, hf⟩ := h
  cases hI : e.insts[i]? with
  | none =>
    have : (e.modI i f).insts[i]? = none := by rw [modI_getElem?]; simp [hI]
    simp [obj?, hI, this]
  | some I =>
    rw [obj?_eq hI, obj?_eq (modI_self hI f)]
    exact (hf I).core o

theorem LocalE.task {e e' : Eng} (h : LocalE k i o e e') : (e'.obj? i o).map (·.task) = (e.obj? i o).map (·.task) := by
  have := congrArg (Option.map (fun x => x.1)) h.obj
  simp only [Option.map_map] at this
  exact this

theorem LocalE.taskDef {e e' : Eng} (h : LocalE k i o e e') (t : TaskRef) : e'.taskDef? i t = e.taskDef? i t := by
  obtain ⟨f, rfl, hf⟩ := h
  unfold taskDef?
  rw [modI_getElem?]
  cases hI : e.insts[i]? with
  | none => simp
  | some I => simp [(hf I).defn]

theorem LocalE.andThen {e : Eng} {r : Eng × Option Err} {q : Eng → Eng × Option Err} (h1 : LocalE k i o e r.1)
    (h2 : ∀ f, LocalE k i o f (q f).1) : LocalE k i o e (andThen r q).1 := by
  unfold Eng.andThen
  obtain ⟨f, er⟩ := r
  cases er with
  | some err => exact h1
  | none => exact h1.trans (h2 f)

theorem LocalE.applyInputMapper (e : Eng) (n : String) : LocalE k i o e (e.applyInputMapper env i o n).1 := by
  unfold Eng.applyInputMapper
  split
  · exact .refl ..
  · exact .refl ..
  · exact .mk' _ _ (fun _ => .modO _ (fun _ => ⟨rfl, rfl, rfl⟩) (fun _ _ => rfl))

theorem LocalE.inputInterceptor (e : Eng) (ob : Obj) : LocalE k i o e (e.inputInterceptor env i o ob).1 := by
  unfold Eng.inputInterceptor
  split
  · exact .refl ..
  · exact .mk' _ _ (fun _ => .modO _ (fun _ => ⟨rfl, rfl, rfl⟩) (fun _ _ => rfl))

theorem LocalE.accumulate (e : Eng) (t : TaskId) : LocalE k i o e (e.accumulate i o t).1 := by
  unfold Eng.accumulate
  split
  · exact .refl ..
  · split
    · exact .mk' _ _ (fun I => .setValue _ _)
    · exact .mk' _ _ (fun I => .setValue _ _)
    · exact .refl ..

theorem LocalE.outputMapper (e : Eng) (n : String) : LocalE k i o e (e.outputMapper env i o n).1 := by
  unfold Eng.outputMapper
  split
  · exact .refl ..
  · exact .mk' _ _ (fun I => .attrs _)

theorem LocalE.outputInterceptor (e : Eng) (ob : Obj) (td : TaskDef) :
    LocalE k i o e (e.outputInterceptor env i o ob td).1 := by
  unfold Eng.outputInterceptor
  split
  · exact .refl ..
  · split
    · exact .refl ..
    · split
      · exact .refl ..
      · split <;> exact .refl ..
      · split
        · exact .refl ..
        · exact .mk' _ _ (fun _ => .modO _ (fun _ => ⟨rfl, rfl, rfl⟩) (fun _ _ => rfl))

theorem LocalE.assertion (e : Eng) (ob : Obj) : LocalE k i o e (e.assertion env i ob).1 := by
  unfold Eng.assertion
  split
  · split <;> exact .refl ..
  · exact .refl ..

theorem LocalE.storeOutputs (e : Eng) (t : TaskId) (td : TaskDef) : LocalE k i o e (e.storeOutputs env i o t td).1 := by
  unfold Eng.storeOutputs
  split
  · refine .andThen (.accumulate e t) (fun f => ?_)
    split
    · exact .outputMapper f _
    · exact .refl ..
  · exact .outputMapper e _

theorem LocalE.afterDone (e : Eng) (ob : Obj) (td : TaskDef) : LocalE k i o e (e.afterDone env i o ob td).1 := by
  unfold Eng.afterDone
  split
  · exact .refl ..
  · rw [doneOrErr_fst]
    exact .andThen (.outputInterceptor e ob td) (fun f => .andThen (.storeOutputs f _ td) (fun g => .assertion g ob))

theorem LocalE.postStore (e : Eng) (ob : Obj) (td : TaskDef) : LocalE k i o e (e.postStore env i o ob td).1 := by
  have h : LocalE k i o e (Eng.andThen (Eng.outputInterceptor env e i o ob td) (fun e1 =>
      Eng.andThen (if td.accumulates then e1.accumulate i o ob.task.id else Eng.outputMapper env e1 i o td.name)
        (fun e2 => Eng.assertion env e2 i ob))).1 := by
    refine .andThen (.outputInterceptor e ob td) (fun f => .andThen ?_ (fun g => .assertion g ob))
    split
    · exact .accumulate f _
    · exact .outputMapper f _
  unfold Eng.postStore
  split
  · rename_i heq; rw [heq] at h; exact h
  · rename_i heq; rw [heq] at h; exact h

theorem LocalE.evalErrorData (e : Eng) (t : TaskId) (err : Err) : LocalE k i o e (e.evalErrorData i t err) := by
  refine .mk' _ _ (fun I => ?_)
  split
  · exact .setValue _ _
  · exact (LocalInst.setValue _ _).trans (.setValue _ _)

theorem LocalE.setRetry (e : Eng) (c : Int) : LocalE false i o e (e.setRetry i o c) :=
  .mk' _ _ (fun _ => .modO _ (fun _ => ⟨rfl, rfl, rfl⟩) (fun h => nomatch h))

theorem LocalE.getRetry (e : Eng) : LocalE false i o e (e.getRetry env i o).1 := by
  unfold Eng.getRetry
  split
  · exact .refl ..
  · split
    · exact .refl ..
    · exact .setRetry ..

theorem LocalE.dwInit (e : Eng) : LocalE false i o e (e.dwInit i o) := .mk' _ _ (fun _ => .modO _ (fun _ => ⟨rfl, rfl, rfl⟩) (fun h => nomatch h))
theorem LocalE.dwUpdate (e : Eng) : LocalE false i o e (e.dwUpdate i o) := .mk' _ _ (fun _ => .modO _ (fun _ => ⟨rfl, rfl, rfl⟩) (fun h => nomatch h))

theorem LocalE.weaken {e e' : Eng} (h : LocalE true i o e e') : LocalE k i o e e' := by
  obtain ⟨f, rfl, hf⟩ := h
  exact ⟨f, rfl, fun I => (hf I).weaken⟩

theorem LocalE.work {e e' : Eng} (h : LocalE true i o e e') : (e'.obj? i o).map (·.work) = (e.obj? i o).map (·.work) := by
  obtain ⟨f, rfl, hf⟩ := h
  cases hI : e.insts[i]? with
  | none =>
    have : (e.modI i f).insts[i]? = none := by rw [modI_getElem?]; simp [hI]
    simp [obj?, hI, this]
  | some I =>
    rw [obj?_eq hI, obj?_eq (modI_self hI f)]
    exact (hf I).work rfl o

/-- One evaluation of the activity of a task instance, as an observer sees it: either the activity is not called, or it is
called once in the state `c`. -/
inductive Once (env : Env) (i o : Nat) (td : TaskDef) (e : Eng) : Eng → Except Err Bool → Prop
  | failed {e' : Eng} {err : Err} (h : LocalE true i o e e') : Once env i o td e e' (.error err)
  | skipped {e' : Eng} (h : LocalE true i o e e') : Once env i o td e e' (.ok true)
  | callFailed {c e' : Eng} {ob : Obj} {err : Err} {p : Bool} (h : LocalE true i o e c) (ho : c.obj? i o = some ob)
      (hc : (c.callActivity env i o ob td).2 = (.error err, p))
      (h' : LocalE true i o (c.callActivity env i o ob td).1 e') : Once env i o td e e' (.error err)
  | callWaits {c : Eng} {ob : Obj} {p : Bool} (h : LocalE true i o e c) (ho : c.obj? i o = some ob)
      (hc : (c.callActivity env i o ob td).2 = (.ok false, p)) : Once env i o td e (c.callActivity env i o ob td).1 (.ok false)
  | callDone {c e' : Eng} {ob : Obj} {p : Bool} {r : Except Err Bool} (h : LocalE true i o e c) (ho : c.obj? i o = some ob)
      (hc : (c.callActivity env i o ob td).2 = (.ok true, p))
      (h' : LocalE true i o (c.callActivity env i o ob td).1 e') (hr : r = .ok true ∨ ∃ err, r = .error err) :
      Once env i o td e e' r

theorem callActivity_congr {e : Eng} {ob ob' : Obj} (h : ob'.task = ob.task) (td : TaskDef) :
    e.callActivity env i o ob' td = e.callActivity env i o ob td := by
  unfold Eng.callActivity
  rw [h]

theorem Once.of_afterDone {td : TaskDef} {e c : Eng} (h : LocalE true i o e c) (ob : Obj) :
    Once env i o td e (c.afterDone env i o ob td).1 (c.afterDone env i o ob td).2 := by
  have hl := h.trans (LocalE.afterDone (env := env) c ob td)
  cases hr : (c.afterDone env i o ob td).2 with
  | error err => exact .failed hl
  | ok b =>
    have : b = true := by
      unfold Eng.afterDone at hr
      split at hr
      · cases hr
      · unfold doneOrErr at hr
        split at hr <;> cases hr
        rfl
    subst this
    exact .skipped hl

theorem afterDone_result (e : Eng) (ob : Obj) (td : TaskDef) :
    (e.afterDone env i o ob td).2 = .ok true ∨ ∃ err, (e.afterDone env i o ob td).2 = .error err := by
  unfold Eng.afterDone
  split
  · exact Or.inr ⟨_, rfl⟩
  · unfold doneOrErr
    split
    · exact Or.inr ⟨_, rfl⟩
    · exact Or.inl rfl

theorem evalWith_once {e : Eng} {p : Eng × Bool} {ob : Obj} {td : TaskDef} (h : LocalE true i o e p.1)
    (ho : e.obj? i o = some ob) : Once env i o td e (evalWith env p i o ob td).1 (evalWith env p i o ob td).2 := by
  unfold Eng.evalWith
  split
  · exact .of_afterDone h ob
  · split
    · exact .failed h
    · split
      · exact .of_afterDone h ob
      · have ht := h.task
        rw [ho] at ht
        cases hc : p.1.obj? i o with
        | none => rw [hc] at ht; cases ht
        | some ob' =>
          rw [hc] at ht
          have ht' : ob'.task = ob.task := by simpa using ht
          rw [← callActivity_congr (env := env) (i := i) (o := o) (e := p.1) ht' td]
          split
          · rename_i e3 err panicked heq
            refine .callFailed h hc (p := panicked) (err := err) (by rw [heq]) ?_
            rw [heq]
            split
            · exact .refl ..
            · exact .evalErrorData ..
          · rename_i e3 pq heq
            have : e3 = (p.1.callActivity env i o ob' td).1 := by rw [heq]
            subst this
            exact .callDone h hc (p := pq) (by rw [heq]) (.afterDone ..) (afterDone_result ..)
          · rename_i e3 pq heq
            have : e3 = (p.1.callActivity env i o ob' td).1 := by rw [heq]
            subst this
            exact .callWaits h hc (p := pq) (by rw [heq])

theorem evalOnce_once {e : Eng} {ob : Obj} {td : TaskDef} (ho : e.obj? i o = some ob) (htd : e.taskDef? i ob.task = some td) :
    Once env i o td e (e.evalOnce env i o).1 (e.evalOnce env i o).2 := by
  unfold Eng.evalOnce
  rw [ho]
  dsimp only
  rw [htd]
  dsimp only
  have h1 := LocalE.applyInputMapper (env := env) (k := true) (i := i) (o := o) e td.name
  split
  · rename_i e1 err heq
    rw [heq] at h1
    exact .failed h1
  · rename_i e1 heq
    rw [heq] at h1
    exact evalWith_once (h1.trans (.inputInterceptor ..)) ho

end Eng

end Flow
