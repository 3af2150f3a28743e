import Verif.Proofs.EngOK
import Verif.Spec.Run

/-
Flow statuses and activity calls: entering, finishing, skipping and releasing tasks calls no activity and changes no
flow status except by completion.
-/

namespace Flow
open Spec

/-- Calls of activities and starts of the error handler. -/
def isLoud : Ev → Bool
  | .evalAct .. => true
  | .postAct .. => true
  | .ehStart => true
  | _ => false

/-- Task objects keep their task and working data; new ones have no working data. -/
structure WorkKept (I I' : Inst) : Prop where
  kept : ∀ (p : Nat) (ob : Obj), I.objs[p]? = some ob → ∃ ob' : Obj, I'.objs[p]? = some ob' ∧ ob'.task = ob.task ∧ ob'.work = ob.work
  born : ∀ (p : Nat) (ob' : Obj), I'.objs[p]? = some ob' → I.objs[p]? = none → ob'.work = (none, none, none, none)

/-- No activity was called, no error handler was started, status and attributes are unchanged. -/
structure Calm (I I' : Inst) : Prop where
  loud : I'.trace.filter isLoud = I.trace.filter isLoud
  status : I'.status = I.status
  attrs : I'.attrs = I.attrs
  defn : I'.defn = I.defn
  host : I'.host = I.host
  subflowId : I'.subflowId = I.subflowId
  handling : I'.handling = I.handling
  force : I'.force = I.force
  returnData : I'.returnData = I.returnData
  returnError : I'.returnError = I.returnError
  flows : I'.posted.filter Post.isFlow = I.posted.filter Post.isFlow
  work : WorkKept I I'

namespace Calm

/-- All task objects are kept. -/
theorem keep {I I' : Inst} (h : I'.objs = I.objs) : WorkKept I I' :=
  ⟨fun _ ob hp => ⟨ob, h ▸ hp, rfl, rfl⟩, fun _ _ hp hn => by rw [h, hn] at hp; cases hp⟩

theorem _root_.Flow.WorkKept.trans {I J K : Inst} (h : WorkKept I J) (g : WorkKept J K) : WorkKept I K := by
  constructor
  · intro p ob hp
    obtain ⟨ob1, h1, h2, h3⟩ := h.kept p ob hp
    obtain ⟨ob2, h4, h5, h6⟩ := g.kept p ob1 h1
    exact ⟨ob2, h4, h5.trans h2, h6.trans h3⟩
  · intro p ob hp hn
    cases hJ : J.objs[p]? with
    | none => exact g.born p ob hp hJ
    | some ob1 =>
      obtain ⟨ob2, h4, _, h6⟩ := g.kept p ob1 hJ
      rw [hp] at h4; cases h4
      rw [h6]; exact h.born p ob1 hJ hn

theorem keep_modify {I I' : Inst} {o : Nat} {f : Obj → Obj} (hf : ∀ x, (f x).task = x.task ∧ (f x).work = x.work)
    (h : I'.objs = I.objs.modify o f) : WorkKept I I' := by
  constructor
  · intro p ob hp
    rw [h, List.getElem?_modify, hp]
    by_cases h : o = p
    · exact ⟨f ob, by simp [h], (hf ob).1, (hf ob).2⟩
    · exact ⟨ob, by simp [h], rfl, rfl⟩
  · intro p ob' hp hn
    rw [h, List.getElem?_modify, hn] at hp
    cases hp

theorem refl (I : Inst) : Calm I I := ⟨rfl, rfl, rfl, rfl, rfl, rfl, rfl, rfl, rfl, rfl, rfl, keep rfl⟩

theorem trans {I J K : Inst} (h : Calm I J) (g : Calm J K) : Calm I K :=
  ⟨g.1.trans h.1, g.2.trans h.2, g.3.trans h.3, g.4.trans h.4, g.5.trans h.5, g.6.trans h.6, g.7.trans h.7,
    g.8.trans h.8, g.9.trans h.9, g.10.trans h.10, g.11.trans h.11, h.work.trans g.work⟩

theorem calls {I I' : Inst} (h : Calm I I') : I'.trace.filter isCall = I.trace.filter isCall := by
  have := congrArg (List.filter isCall) h.loud
  simp only [List.filter_filter] at this
  have hc : ∀ l : List Ev, l.filter (fun a => isCall a && isLoud a) = l.filter isCall := by
    intro l
    congr 1; funext a; cases a <;> rfl
  rwa [hc, hc] at this

theorem starts {I I' : Inst} (h : Calm I I') : I'.trace.filter (· = .ehStart) = I.trace.filter (· = .ehStart) := by
  have := congrArg (List.filter (fun a => decide (a = .ehStart))) h.loud
  simp only [List.filter_filter] at this
  have hc : ∀ l : List Ev, l.filter (fun a => decide (a = .ehStart) && isLoud a) = l.filter (fun a => decide (a = .ehStart)) := by
    intro l
    congr 1; funext a; cases a <;> simp [isLoud]
  rwa [hc, hc] at this

theorem setTaskStatus (I : Inst) (o : Nat) (s : TaskStatus) : Calm I (I.setTaskStatus o s) := by
  unfold Inst.setTaskStatus
  split
  · exact refl _
  · exact ⟨by simp [isLoud], rfl, rfl, rfl, rfl, rfl, rfl, rfl, rfl, rfl, rfl, keep_modify (o := o) (f := fun x => { x with status := s }) (fun _ => ⟨rfl, rfl⟩) rfl⟩

theorem findOrCreateTask (I : Inst) (t : TaskRef) : Calm I (I.findOrCreateTask t).1 := by
  unfold Inst.findOrCreateTask
  split
  · exact refl _
  · refine ⟨by simp [isLoud], rfl, rfl, rfl, rfl, rfl, rfl, rfl, rfl, rfl, rfl, fun p ob hp => ⟨ob, ?_, rfl, rfl⟩, fun p ob hp hn => ?_⟩
    · have hlt := (List.getElem?_eq_some_iff.1 hp).1
      dsimp only
      rw [List.getElem?_append_left hlt]; exact hp
    · have hlt := List.getElem?_eq_none_iff.1 hn
      dsimp only at hp
      rw [List.getElem?_append_right hlt] at hp
      have h0 := (List.getElem?_eq_some_iff.1 hp).1
      have h1 : p - I.objs.length = 0 := by simpa using h0
      rw [h1] at hp
      cases hp; rfl

theorem findLink (I : Inst) (l : LinkId) : Calm I (I.findLink l) := by
  unfold Inst.findLink
  split
  · exact refl _
  · exact ⟨by simp [isLoud], rfl, rfl, rfl, rfl, rfl, rfl, rfl, rfl, rfl, rfl, keep rfl⟩

theorem findLinks (I : Inst) (ls : List LinkDef) : Calm I (I.findLinks ls) := by
  unfold Inst.findLinks
  induction ls generalizing I with
  | nil => exact refl _
  | cons l ls ih => exact (findLink I l.id).trans (ih _)

theorem setLink (I : Inst) (l : LinkId) (s : LinkStatus) : Calm I (I.setLink l s) :=
  ⟨by simp [Inst.setLink, isLoud], rfl, rfl, rfl, rfl, rfl, rfl, rfl, rfl, rfl, rfl, keep rfl⟩

theorem applyRows (I : Inst) (rows : List (LinkDef × LinkStatus × Nat)) : Calm I (I.applyRows rows) := by
  unfold Inst.applyRows
  induction rows generalizing I with
  | nil => exact refl _
  | cons r rows ih => exact (setLink I _ _).trans (ih _)

theorem enterTask (I : Inst) (t : TaskRef) : Calm I (I.enterTask t).1 := by
  unfold Inst.enterTask
  dsimp only
  split
  · exact findOrCreateTask I t
  · have h := (findOrCreateTask I t).trans (setTaskStatus _ (I.findOrCreateTask t).2 .entered)
    split
    · exact h.trans (findLinks _ _)
    · exact (h.trans (findLinks _ _)).trans (setTaskStatus _ _ _)
    · exact (h.trans (findLinks _ _)).trans (setTaskStatus _ _ _)

theorem release (I : Inst) (t : TaskRef) : Calm I (I.release t) := by
  unfold Inst.release
  have h0 : Calm I { I with tasks := I.tasks.del t.id, trace := .taskRemoved t.id :: I.trace } :=
    ⟨by simp [isLoud], rfl, rfl, rfl, rfl, rfl, rfl, rfl, rfl, rfl, rfl, keep rfl⟩
  generalize ({ I with tasks := I.tasks.del t.id, trace := .taskRemoved t.id :: I.trace } : Inst) = J at h0
  generalize I.defn.fromLinks t = ls
  induction ls generalizing J with
  | nil => exact h0
  | cons l ls ih =>
    refine ih _ (h0.trans ⟨by simp [isLoud], rfl, rfl, rfl, rfl, rfl, rfl, rfl, rfl, rfl, rfl, keep rfl⟩)

theorem skipTask (I : Inst) (o : Nat) (t : TaskRef) : Calm I (I.skipTask o t).1 :=
  ((findLinks I _).trans (setTaskStatus _ _ _)).trans (applyRows _ _)

theorem doneTask (prio : Bool) (ev : LinkDef → ExprOut) (I : Inst) (o : Nat) (t : TaskRef) :
    Calm I (I.doneTask prio ev o t).1 := by
  unfold Inst.doneTask
  dsimp only
  split <;> exact ((findLinks I _).trans (setTaskStatus _ _ _)).trans (applyRows _ _)

theorem errorTask (I : Inst) (o : Nat) (t : TaskRef) : Calm I (I.errorTask o t).1 := by
  unfold Inst.errorTask
  dsimp only
  split
  · exact (setTaskStatus I _ _).trans (findLinks _ _)
  · exact ((setTaskStatus I _ _).trans (findLinks _ _)).trans (applyRows _ _)

end Calm

namespace Eng

variable {env : Env}

/-- Nothing but completion of instance `c` happens to statuses, and no activity is called. -/
structure EnterFrame (c : Nat) (e e' : Eng) : Prop where
  len : e'.insts.length = e.insts.length
  id : e'.id = e.id
  stepID : e'.stepID = e.stepID
  replies : e'.replies = e.replies
  subflowCtr : e'.subflowCtr = e.subflowCtr
  insts : ∀ (j : Nat) (I : Inst), e.insts[j]? = some I → ∃ I', e'.insts[j]? = some I' ∧
    I'.trace.filter isCall = I.trace.filter isCall ∧ I'.attrs = I.attrs ∧ I'.defn = I.defn ∧ I'.handling = I.handling ∧
    I'.host = I.host ∧ I'.subflowId = I.subflowId ∧ I'.force = I.force ∧ I'.returnData = I.returnData ∧
    I'.returnError = I.returnError ∧ (I'.status = I.status ∨ (j = c ∧ I'.status = .completed))

theorem EnterFrame.refl (c : Nat) (e : Eng) : EnterFrame c e e :=
  ⟨rfl, rfl, rfl, rfl, rfl, fun _ I h => ⟨I, h, rfl, rfl, rfl, rfl, rfl, rfl, rfl, rfl, rfl, Or.inl rfl⟩⟩

theorem EnterFrame.trans {c : Nat} {e f g : Eng} (h : EnterFrame c e f) (h' : EnterFrame c f g) : EnterFrame c e g := by
  refine ⟨h'.len.trans h.len, h'.id.trans h.id, h'.stepID.trans h.stepID, h'.replies.trans h.replies, h'.subflowCtr.trans h.subflowCtr, fun j I hI => ?_⟩
  obtain ⟨J, hJ, a1, a2, a3, a4, a5, a6, a7, a8, a9, a10⟩ := h.insts j I hI
  obtain ⟨K, hK, b1, b2, b3, b4, b5, b6, b7, b8, b9, b10⟩ := h'.insts j J hJ
  refine ⟨K, hK, b1.trans a1, b2.trans a2, b3.trans a3, b4.trans a4, b5.trans a5, b6.trans a6, b7.trans a7, b8.trans a8, b9.trans a9, ?_⟩
  rcases b10 with h1 | h1
  · rw [h1]; exact a10
  · exact Or.inr h1

/-- Changes of control state and queue only. -/
theorem EnterFrame.ctl {c : Nat} {e e' : Eng} (h1 : e'.insts = e.insts) (h2 : e'.id = e.id) (h3 : e'.stepID = e.stepID)
    (h4 : e'.replies = e.replies) (h5 : e'.subflowCtr = e.subflowCtr) : EnterFrame c e e' :=
  ⟨by rw [h1], h2, h3, h4, h5, fun _ I h => ⟨I, by rw [h1]; exact h, rfl, rfl, rfl, rfl, rfl, rfl, rfl, rfl, rfl, Or.inl rfl⟩⟩

theorem EnterFrame.modI {c j : Nat} {e : Eng} {f : Inst → Inst} (h : ∀ I, e.insts[j]? = some I → Calm I (f I)) :
    EnterFrame c e (e.modI j f) := by
  refine ⟨by simp, rfl, rfl, rfl, rfl, fun k I hI => ?_⟩
  rw [modI_getElem?]
  split
  · rename_i hjk; subst hjk
    have := h I hI
    exact ⟨f I, by simp [hI], this.calls, this.attrs, this.defn, this.handling, this.host, this.subflowId, this.force, this.returnData, this.returnError, Or.inl this.status⟩
  · exact ⟨I, hI, rfl, rfl, rfl, rfl, rfl, rfl, rfl, rfl, rfl, Or.inl rfl⟩

theorem EnterFrame.modO {c j o : Nat} {e : Eng} {f : Obj → Obj} (hf : ∀ x, (f x).task = x.task ∧ (f x).work = x.work) :
    EnterFrame c e (e.modI j (fun I => I.modO o f)) :=
  EnterFrame.modI fun _ _ => ⟨rfl, rfl, rfl, rfl, rfl, rfl, rfl, rfl, rfl, rfl, rfl, Calm.keep_modify hf rfl⟩

theorem EnterFrame.schedule {c i o : Nat} {e : Eng} : EnterFrame c e (e.schedule i o) := .ctl rfl rfl rfl rfl rfl

theorem EnterFrame.complete (e : Eng) (i : Nat) : EnterFrame i e (e.complete i) := by
  have h1 : EnterFrame i e (e.modI i (fun J => J.setFlowStatus .completed)) := by
    refine ⟨by simp, rfl, rfl, rfl, rfl, fun k I hI => ?_⟩
    rw [modI_getElem?]
    split
    · rename_i hjk; subst hjk
      exact ⟨I.setFlowStatus .completed, by rw [hI]; rfl, by simp [Inst.setFlowStatus, isCall], rfl, rfl, rfl, rfl, rfl, rfl, rfl, rfl, Or.inr ⟨rfl, rfl⟩⟩
    · exact ⟨I, hI, rfl, rfl, rfl, rfl, rfl, rfl, rfl, rfl, rfl, Or.inl rfl⟩
  unfold Eng.complete
  split
  · exact .refl _ _
  · dsimp only
    split
    · exact h1
    · split
      · exact h1.trans (.ctl rfl rfl rfl rfl rfl)
      · rename_i I _ _ _ hi ho _
        exact (h1.trans (EnterFrame.modO (f := fun x => { x with outputs := I.returnData, returnError := none })
          fun _ => ⟨rfl, rfl⟩)).trans (.ctl rfl rfl rfl rfl rfl)

theorem EnterFrame.finishTask (e : Eng) (i : Nat) (t : TaskRef) (n : Bool) (es : List TaskEntry) (rest : List Frame) :
    EnterFrame i e (e.finishTask i t n es rest) := by
  unfold Eng.finishTask
  split
  · exact .refl _ _
  · split
    · exact (EnterFrame.complete e i).trans (.ctl rfl rfl rfl rfl rfl)
    · exact .ctl rfl rfl rfl rfl rfl

theorem EnterFrame.taskSkipped (e : Eng) (i o : Nat) (rest : List Frame) : EnterFrame i e (e.taskSkipped i o rest) := by
  unfold Eng.taskSkipped
  split
  · exact .refl _ _
  · rename_i I hI
    split
    · exact .ctl rfl rfl rfl rfl rfl
    · refine (EnterFrame.modI fun J hJ => ?_).trans (EnterFrame.finishTask _ _ _ _ _ _)
      rw [hI] at hJ; cases hJ
      exact Calm.skipTask _ _ _

theorem EnterFrame.enterEntry (e : Eng) (x : TaskEntry) (xs : List TaskEntry) (rest : List Frame) :
    EnterFrame e.cur e (e.enterEntry env x xs rest) := by
  unfold Eng.enterEntry
  split
  · exact .ctl rfl rfl rfl rfl rfl
  · rename_i I hI
    have hm : EnterFrame e.cur e (e.modI e.cur (fun _ => (I.enterTask x.task).1)) :=
      EnterFrame.modI fun J hJ => by rw [hI] at hJ; cases hJ; exact Calm.enterTask _ _
    dsimp only
    split
    · exact hm.trans (.ctl rfl rfl rfl rfl rfl)
    · split
      · exact hm.trans (.ctl rfl rfl rfl rfl rfl)
      · exact hm.trans (.ctl rfl rfl rfl rfl rfl)
    · exact hm.trans (EnterFrame.taskSkipped _ _ _ _)

/-- A step inside `DoStep` (the stack is not empty). -/
theorem EnterFrame.step {e : Eng} (h : e.stack ≠ []) : EnterFrame e.cur e (e.step env) := by
  unfold Eng.step
  split
  · rename_i hs; exact absurd hs h
  · exact .ctl rfl rfl rfl rfl rfl
  · exact EnterFrame.enterEntry _ _ _ _
  · exact (EnterFrame.modI fun I _ => Calm.release I _).trans (.ctl rfl rfl rfl rfl rfl)

theorem EnterFrame.calls {c : Nat} {e e' : Eng} (h : EnterFrame c e e') (i : Nat) : calls e' i = calls e i := by
  unfold Spec.calls
  cases hI : e.insts[i]? with
  | none =>
    have : e'.insts[i]? = none := by
      rw [List.getElem?_eq_none_iff] at hI ⊢; rw [h.len]; exact hI
    rw [this]
  | some I =>
    obtain ⟨I', h1, h2, _⟩ := h.insts i I hI
    rw [h1]; exact h2

theorem EnterFrame.flowStatus {c : Nat} {e e' : Eng} (h : EnterFrame c e e') {i : Nat} {s : FlowStatus}
    (hs : flowStatus e i = some s) : flowStatus e' i = some s ∨ (i = c ∧ flowStatus e' i = some .completed) := by
  unfold Spec.flowStatus at hs ⊢
  cases hI : e.insts[i]? with
  | none => rw [hI] at hs; simp at hs
  | some I =>
    rw [hI] at hs; simp at hs
    obtain ⟨I', h1, _, _, _, _, _, _, _, _, _, h2⟩ := h.insts i I hI
    rw [h1]
    rcases h2 with h2 | ⟨h2, h3⟩
    · left; simp [h2, hs]
    · right; exact ⟨h2, by simp [h3]⟩

/-! ### A failed top-level flow has left the step -/

theorem flowStatus_modI_ne {e : Eng} {i j : Nat} (h : i ≠ j) (f : Inst → Inst) :
    flowStatus (e.modI i f) j = flowStatus e j := by
  simp [Spec.flowStatus, modI_ne h]

theorem flowStatus_modI_same {e : Eng} {i j : Nat} {f : Inst → Inst} (h : ∀ I, (f I).status = I.status) :
    flowStatus (e.modI i f) j = flowStatus e j := by
  unfold Spec.flowStatus
  rw [modI_getElem?]
  split
  · cases e.insts[j]? <;> simp [h]
  · rfl

theorem failHost_stack (e : Eng) (i : Nat) (err : Err) : (e.failHost i err).stack = e.stack := by
  unfold Eng.failHost
  split
  · rfl
  · split
    · rfl
    · rfl

theorem globalError_fail {e : Eng} (hst : e.stack = []) (hs : flowStatus e 0 ≠ some .failed) (i : Nat) (err : Err)
    (hf : flowStatus (e.globalError i err) 0 = some .failed) : (e.globalError i err).stack = [] := by
  unfold Eng.globalError at hf ⊢
  split
  · exact hst
  · rename_i I hI
    rw [hI] at hf
    dsimp only at hf
    split
    · exact hst
    · rename_i hh
      rw [if_neg hh] at hf
      dsimp only at hf ⊢
      split
      · rename_i g hg
        rw [hg] at hf
        exfalso
        apply hs
        rw [← hf]
        show _ = flowStatus (((e.modI i _).modI 0 _).modI i _) 0
        rw [flowStatus_modI_same (h := by intros; rfl), flowStatus_modI_same (h := by intros; rfl), flowStatus_modI_same (h := by intros; rfl)]
      · split
        · exact hst
        · rw [failHost_stack]; exact hst

theorem taskError_fail {e : Eng} (hst : e.stack = []) (hs : flowStatus e 0 ≠ some .failed) (i o : Nat) (t : TaskRef) (err : Err)
    (hf : flowStatus (e.taskError i o t err) 0 = some .failed) : (e.taskError i o t err).stack = [] := by
  unfold Eng.taskError at hf ⊢
  cases hI : e.insts[i]? with
  | none => exact hst
  | some I =>
    rw [hI] at hf
    dsimp only at hf ⊢
    have hcalm := Calm.errorTask I o t
    have hmod : ∀ J : Inst, J.status = I.status → flowStatus (e.modI i (fun _ => J)) 0 = flowStatus e 0 := by
      intro J hJ
      unfold Spec.flowStatus
      rw [modI_getElem?]
      split
      · rename_i h0; subst h0; simp [hI, hJ]
      · rfl
    split
    · rename_i I1 es hx
      rw [hx] at hcalm hf
      exfalso; apply hs; rw [← hf]
      show _ = flowStatus (e.modI i _) 0
      rw [hmod _ (by simpa [Inst.setValue] using hcalm.status)]
    · rename_i I1 hx
      rw [hx] at hcalm hf
      dsimp only at hf
      split
      · split
        · exact hst
        · rw [failHost_stack]; exact hst
      · rename_i hh
        rw [if_neg hh] at hf
        refine globalError_fail ?_ ?_ i err hf
        · exact hst
        · unfold Eng.appendErrorData
          rw [flowStatus_modI_same (h := by intros; rfl), hmod _ hcalm.status]
          exact hs

theorem taskDone_fail {e : Eng} (hst : e.stack = []) (hs : flowStatus e 0 ≠ some .failed) (i o : Nat) (t : TaskRef)
    (hf : flowStatus (e.taskDone env i o t) 0 = some .failed) : (e.taskDone env i o t).stack = [] := by
  unfold Eng.taskDone at hf ⊢
  cases hI : e.insts[i]? with
  | none => exact hst
  | some I =>
    rw [hI] at hf
    dsimp only at hf ⊢
    have hcalm := Calm.doneTask env.prio (env.link e i) I o t
    have hmod : ∀ J : Inst, J.status = I.status → flowStatus (e.modI i (fun _ => J)) 0 = flowStatus e 0 := by
      intro J hJ
      unfold Spec.flowStatus
      rw [modI_getElem?]
      split
      · rename_i h0; subst h0; simp [hI, hJ]
      · rfl
    split
    · rename_i I1 m hx
      rw [hx] at hcalm hf
      refine globalError_fail ?_ ?_ i _ hf
      · exact hst
      · unfold Eng.appendErrorData
        rw [flowStatus_modI_same (h := by intros; rfl), hmod _ hcalm.status]
        exact hs
    · rename_i I1 es hx
      rw [hx] at hcalm hf
      dsimp only at hf
      exfalso
      have h1 := hmod _ hcalm.status
      cases h2 : flowStatus e 0 with
      | none =>
        have h3 := EnterFrame.finishTask (e.modI i (fun _ => I1)) i t ((I.defn.toLinks t).length = 0) es []
        have : (e.modI i (fun _ => I1)).insts.length = 0 := by
          rw [modI_length]
          have : e.insts[0]? = none := by
            unfold Spec.flowStatus at h2
            cases h5 : e.insts[0]? with
            | none => rfl
            | some _ => rw [h5] at h2; simp at h2
          have := List.getElem?_eq_none_iff.1 this
          omega
        have h4 := h3.len
        rw [this] at h4
        unfold Spec.flowStatus at hf
        rw [List.getElem?_eq_none_iff.2 (by omega)] at hf
        simp at hf
      | some s =>
        rw [h2] at h1
        rcases (EnterFrame.finishTask (e.modI i (fun _ => I1)) i t ((I.defn.toLinks t).length = 0) es []).flowStatus h1 with h3 | ⟨_, h3⟩
        · rw [hf] at h3; cases h3; exact hs h2
        · rw [hf] at h3; cases h3

theorem Evals.flowStatus {i o : Nat} {s : Option String} {e e' : Eng} (h : Evals env i o s e e') {j : Nat}
    (hj : j < e.insts.length) : flowStatus e' j = flowStatus e j := by
  unfold Spec.flowStatus
  obtain ⟨_, h2, h3, _⟩ := h.obj
  by_cases hij : j = i
  · subst hij
    have hI : e.insts[j]? = some e.insts[j] := List.getElem?_eq_getElem hj
    obtain ⟨I', h4, h5⟩ := h2 _ hI
    rw [h4, hI]; simp [h5.status]
  · rw [h3 j hij hj]

theorem flowStatus_setStatus (e : Eng) (i o : Nat) (st : TaskStatus) (j : Nat) :
    flowStatus (e.setStatus i o st) j = flowStatus e j := by
  unfold Eng.setStatus
  exact flowStatus_modI_same fun I => (Calm.setTaskStatus I o st).status

theorem handleResult_fail {e : Eng} (hst : e.stack = []) (hs : flowStatus e 0 ≠ some .failed) (i o : Nat) (t : TaskRef)
    (name : String) (r : EvalOut) (hf : flowStatus (e.handleResult env i o t name r) 0 = some .failed) :
    (e.handleResult env i o t name r).stack = [] := by
  unfold Eng.handleResult at hf ⊢
  split
  · exact taskError_fail hst hs i o t _ hf
  · exact taskDone_fail hst hs i o t hf
  · exact taskDone_fail hst hs i o t hf
  · exact hst
  · exact hst
  · exact hst
  · cases hI : e.insts[i]? with
    | none => exact hst
    | some I =>
      rw [hI] at hf
      dsimp only at hf ⊢
      split
      · exact hst
      · rename_i hh
        rw [if_neg hh] at hf
        refine globalError_fail ?_ ?_ i _ hf
        · exact hst
        · unfold Eng.appendErrorData
          rw [flowStatus_modI_same (h := by intros; rfl)]
          exact hs

/-- What evaluation and post-evaluation do to stack and statuses. -/
theorem evalKind_status {e : Eng} {i o : Nat} {ob : Obj} (ho : e.obj? i o = some ob) (td : TaskDef) {j : Nat}
    (hj : j < e.insts.length) :
    (e.evalKind env i o td).1.stack = e.stack ∧ flowStatus (e.evalKind env i o td).1 j = flowStatus e j := by
  obtain ⟨e', hev, heff⟩ := evalKind_spec (env := env) ho td
  have h1 := hev.flowStatus hj
  have h2 := hev.obj.2.2.2.1
  revert heff
  generalize (e.evalKind env i o td).1 = e1
  generalize (e.evalKind env i o td).2 = r
  intro heff
  cases r with
  | res r =>
    cases r <;> simp only [EvalEff] at heff
    · subst heff; exact ⟨h2, h1⟩
    · subst heff; exact ⟨h2, h1⟩
    · rcases heff with heff | heff
      · subst heff; exact ⟨h2, h1⟩
      · subst heff; exact ⟨h2, by rw [flowStatus_setStatus]; exact h1⟩
  | err er =>
    simp only [EvalEff] at heff
    rcases heff with heff | heff
    · subst heff; exact ⟨h2, h1⟩
    · subst heff; exact ⟨h2, by rw [flowStatus_setStatus]; exact h1⟩
  | panic m => simp only [EvalEff] at heff; subst heff; exact ⟨h2, h1⟩

theorem postKind_status {e : Eng} {i o : Nat} {ob : Obj} (ho : e.obj? i o = some ob) (td : TaskDef) {j : Nat}
    (hj : j < e.insts.length) :
    (e.postKind env i o td).1.stack = e.stack ∧ flowStatus (e.postKind env i o td).1 j = flowStatus e j := by
  obtain ⟨e', hev, heff⟩ := postKind_spec (env := env) ho td
  have h1 := hev.flowStatus hj
  have h2 := hev.obj.2.2.2.1
  have hs : ∀ st, (e'.setStatus i o st).stack = e.stack ∧ flowStatus (e'.setStatus i o st) j = flowStatus e j :=
    fun st => ⟨h2, by rw [flowStatus_setStatus]; exact h1⟩
  revert heff
  generalize (e.postKind env i o td).1 = e1
  generalize (e.postKind env i o td).2 = r
  intro heff
  cases r with
  | res r =>
    cases r <;> simp only [PostEff] at heff
    · rcases heff with heff | heff
      · subst heff; exact ⟨h2, h1⟩
      · subst heff; exact hs _
    · subst heff; exact hs _
    · subst heff; exact ⟨h2, h1⟩
  | err er =>
    simp only [PostEff] at heff
    rcases heff with heff | heff | heff
    · subst heff; exact ⟨h2, h1⟩
    · subst heff; exact hs _
    · subst heff; exact hs _
  | panic m => simp only [PostEff] at heff; subst heff; exact hs _

theorem exec_fail {e : Eng} (hst : e.stack = []) (hs : flowStatus e 0 ≠ some .failed) (hl : 0 < e.insts.length) (i o : Nat)
    (hf : flowStatus (e.exec env i o) 0 = some .failed) : (e.exec env i o).stack = [] := by
  unfold Eng.exec at hf ⊢
  cases ho : e.obj? i o with
  | none => exact hst
  | some ob =>
    rw [ho] at hf
    dsimp only at hf ⊢
    cases htd : e.taskDef? i ob.task with
    | none => exact hst
    | some td =>
      rw [htd] at hf
      dsimp only at hf ⊢
      have he := evalKind_status (env := env) ho td hl
      have hp := postKind_status (env := env) ho td hl
      split
      · rename_i h1; rw [h1] at hf; dsimp only at hf
        exact handleResult_fail (hp.1.trans hst) (by rw [hp.2]; exact hs) i o _ _ _ hf
      · exact hst
      · exact hst
      · rename_i h1 h2 h3
        split at hf
        · rename_i h4; exact absurd h4 h1
        · rename_i h4; exact absurd h4 h2
        · rename_i h4; exact absurd h4 h3
        · exact handleResult_fail (he.1.trans hst) (by rw [he.2]; exact hs) i o _ _ _ hf

/-- A failed top-level flow has an empty control stack. -/
def FailOK (e : Eng) : Prop := flowStatus e 0 = some .failed → e.stack = []

theorem EngOK.length_pos {e : Eng} (h : EngOK e) : 0 < e.insts.length := by have := h.ctr; omega

theorem flowStatus_some {e : Eng} (h : 0 < e.insts.length) : ∃ s, flowStatus e 0 = some s := by
  unfold Spec.flowStatus
  rw [List.getElem?_eq_getElem h]
  exact ⟨_, rfl⟩

theorem FailOK.step {e : Eng} (ok : EngOK e) (h : FailOK e) : FailOK (e.step env) := by
  intro hf
  cases hst : e.stack with
  | nil =>
    unfold Eng.step at hf ⊢
    rw [hst] at hf ⊢
    dsimp only at hf ⊢
    unfold Eng.doStep at hf ⊢
    cases hI : e.insts[0]? with
    | none => exact hst
    | some I =>
      rw [hI] at hf
      dsimp only at hf ⊢
      split
      · rename_i ha
        rw [if_pos ha] at hf
        split
        · exact hst
        · rename_i w hw
          rw [hw] at hf
          dsimp only at hf
          refine exec_fail ?_ ?_ ?_ _ _ hf
          · exact hst
          · simp [Spec.flowStatus, hI, ha]
          · exact ok.length_pos
      · exact hst
  | cons f fs =>
    exfalso
    have hne : e.stack ≠ [] := by rw [hst]; simp
    obtain ⟨s, hs⟩ := flowStatus_some ok.length_pos
    rcases (EnterFrame.step (env := env) hne).flowStatus hs with h1 | ⟨_, h1⟩
    · rw [hf] at h1; cases h1
      exact hne (h hs)
    · rw [hf] at h1; cases h1

theorem startInstance_status (env : Env) (e : Eng) (ins : AMap String Val) (hl : 0 < e.insts.length) :
    flowStatus (startInstance env e 0 ins) 0 = some .active := by
  unfold Eng.startInstance
  rw [List.getElem?_eq_getElem hl]
  dsimp only
  generalize Inst.startEntries _ _ = es
  have h0 : ∀ J : Inst, J.status = .active → flowStatus (e.modI 0 (fun _ => J)) 0 = some .active := by
    intro J hJ
    unfold Spec.flowStatus
    rw [modI_self (List.getElem?_eq_getElem hl)]
    simp [hJ]
  have key : ∀ (es : List TaskEntry) (e' : Eng), flowStatus e' 0 = some .active →
      flowStatus (enterStart env e' 0 es) 0 = some .active := by
    intro es
    induction es with
    | nil => intro e' h; exact h
    | cons x xs ih =>
      intro e' h
      simp only [Eng.enterStart]
      cases hI : e'.insts[0]? with
      | none => exact h
      | some I =>
        dsimp only
        have h1 : flowStatus (e'.modI 0 (fun _ => (I.enterTask x.task).1)) 0 = some .active := by
          unfold Spec.flowStatus at h ⊢
          rw [modI_self hI]
          rw [hI] at h
          simpa [(Calm.enterTask I x.task).status] using h
        split
        · split
          · exact ih _ h1
          · exact h1
        · exact ih _ h1
  exact key es _ (h0 _ rfl)

theorem failOK_reachable {e : Eng} (h : Reachable env e) : FailOK e := by
  obtain ⟨id, uri, d, ins, n, rfl⟩ := h
  induction n with
  | zero =>
    intro hf
    have := startInstance_status env (Eng.new id uri d) ins (by simp [Eng.new])
    simp only [Eng.run, Eng.init] at hf
    rw [this] at hf; cases hf
  | succ n ih => exact ih.step (engOK_run id uri d ins n)

theorem engOK_reachable {e : Eng} (h : Reachable env e) : EngOK e := by
  obtain ⟨id, uri, d, ins, n, rfl⟩ := h
  exact engOK_run id uri d ins n

theorem reachable_step {e : Eng} (h : Reachable env e) : Reachable env (e.step env) := by
  obtain ⟨id, uri, d, ins, n, rfl⟩ := h
  exact ⟨id, uri, d, ins, n + 1, rfl⟩

theorem reachable_run {e : Eng} (h : Reachable env e) (n : Nat) : Reachable env (e.run env n) := by
  induction n with
  | zero => exact h
  | succ n ih => exact reachable_step ih

end Eng
end Flow
