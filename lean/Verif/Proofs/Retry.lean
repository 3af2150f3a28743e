import Verif.Proofs.Local
import Verif.Spec.Attempts

/-
Counting activity calls, and the attempts made by `evalActivity`.
-/

namespace Flow
open Spec
namespace Eng

variable {env : Env} {k : Bool} {i o : Nat}

theorem calls_eq {e : Eng} {j : Nat} {I : Inst} (h : e.insts[j]? = some I) : calls e j = I.trace.filter isCall := by
  unfold calls; rw [h]

theorem LocalE.calls {e e' : Eng} (h : LocalE k i o e e') (j : Nat) : calls e' j = calls e j := by
  by_cases hj : j = i
  · subst hj
    cases hI : e.insts[j]? with
    | none =>
      have : e'.insts[j]? = none := by
        rw [List.getElem?_eq_none_iff, h.length]; exact List.getElem?_eq_none_iff.1 hI
      unfold Spec.calls; rw [hI, this]
    | some I =>
      obtain ⟨I', hI', hl⟩ := h.inst hI
      rw [calls_eq hI, calls_eq hI', hl.trace]
  · unfold Spec.calls; rw [h.other hj]

theorem _root_.Flow.Spec.Unseen.refl (e : Eng) : Unseen e e := rfl

theorem _root_.Flow.Spec.Unseen.trans {e f g : Eng} (h : Unseen e f) (h' : Unseen f g) : Unseen e g := Eq.trans h' h

theorem _root_.Flow.Spec.Unseen.setRetry (e : Eng) (i o : Nat) (c : Int) : Unseen e (e.setRetry i o c) := by
  unfold Unseen withoutRetries Eng.setRetry Eng.modI
  congr 1
  refine List.ext_getElem? fun j => ?_
  rw [List.getElem?_map, List.getElem?_map, List.getElem?_modify]
  cases e.insts[j]? with
  | none => simp
  | some I =>
    by_cases hj : i = j
    · subst hj
      simp only [if_true, Option.map_some, Option.map_eq_map, Option.some.injEq]
      unfold Inst.modO
      congr 1
      refine List.ext_getElem? fun p => ?_
      rw [List.getElem?_map, List.getElem?_map, List.getElem?_modify]
      cases I.objs[p]? with
      | none => simp
      | some x => by_cases hp : o = p <;> simp [hp]
    · simp [hj]

theorem _root_.Flow.Spec.Unseen.getRetry (e : Eng) (i o : Nat) : Unseen e (e.getRetry env i o).1 := by
  unfold Eng.getRetry
  split
  · exact .refl _
  · split
    · exact .refl _
    · exact .setRetry ..

theorem _root_.Flow.Spec.Unseen.calls {e e' : Eng} (h : Unseen e e') (j : Nat) : calls e' j = calls e j := by
  have key : ∀ e : Eng, Spec.calls (withoutRetries e) j = Spec.calls e j := by
    intro e
    unfold Spec.calls withoutRetries
    dsimp only
    rw [List.getElem?_map]
    cases e.insts[j]? <;> rfl
  rw [← key e', ← key e, h]

/-- Tasks, statuses, return errors and working data of all task objects agree. -/
def SameWork (I I' : Inst) : Prop := ∀ p : Nat, (I'.objs[p]?).map (fun x : Obj => (x.task, x.status, x.returnError, x.work)) =
  (I.objs[p]?).map (fun x : Obj => (x.task, x.status, x.returnError, x.work))

theorem SameWork.of_objs {I I' : Inst} (h : I'.objs = I.objs) : SameWork I I' := fun p => by rw [h]

theorem SameWork.trans {I J K : Inst} (h : SameWork I J) (g : SameWork J K) : SameWork I K := fun p => (g p).trans (h p)

theorem SameWork.modO (I : Inst) (o : Nat) (f : Obj → Obj)
    (h : ∀ x : Obj, ((f x).task, (f x).status, (f x).returnError, (f x).work) = (x.task, x.status, x.returnError, x.work)) :
    SameWork I (I.modO o f) := by
  intro p
  simp only [Inst.modO, List.getElem?_modify]
  split
  · cases I.objs[p]? with
    | none => rfl
    | some x => exact congrArg some (h x)
  · simp

theorem LocalInst.sameWork {I I' : Inst} (h : LocalInst true o I I') : SameWork I I' := by
  intro p
  have h1 := h.core p
  have h2 := h.work rfl p
  cases ha : I'.objs[p]? with
  | none =>
    cases hb : I.objs[p]? with
    | none => rfl
    | some y => rw [ha, hb] at h1; cases h1
  | some x =>
    cases hb : I.objs[p]? with
    | none => rw [ha, hb] at h1; cases h1
    | some y =>
      rw [ha, hb] at h1 h2
      simp only [Option.map_some, Option.some.injEq, Prod.mk.injEq] at h1 h2 ⊢
      exact ⟨h1.1, h1.2.1, h1.2.2, h2⟩

/-- The call of an activity adds exactly one call to the trace of its instance. -/
theorem callActivity_calls {e : Eng} {ob : Obj} (td : TaskDef) {I : Inst} (hI : e.insts[i]? = some I) :
    ∃ I', (e.callActivity env i o ob td).1.insts[i]? = some I' ∧ I'.trace = .evalAct o ob.task :: I.trace ∧
      I'.defn = I.defn ∧ SameWork I I' := by
  have h0 := modI_self hI (fun I => { I with trace := .evalAct o ob.task :: I.trace })
  have hact : ∀ a, ∃ I', ((e.modI i (fun I => { I with trace := .evalAct o ob.task :: I.trace })).applyActOut i o a).insts[i]? = some I' ∧
      I'.trace = .evalAct o ob.task :: I.trace ∧ I'.defn = I.defn ∧ SameWork I I' := by
    intro a
    unfold Eng.applyActOut
    have h1 : ∃ I', ((e.modI i (fun I => { I with trace := .evalAct o ob.task :: I.trace })).modI i (fun I =>
        let I1 := { I with attrs := I.attrs.update a.sets }
        let I2 := match a.outputs with
          | none => I1
          | some m => I1.modO o (fun x => { x with outputs := m })
        match a.ret with
        | none => I2
        | some (d, err) => { I2 with force := true, returnData := d, returnError := err })).insts[i]? = some I' ∧
        I'.trace = .evalAct o ob.task :: I.trace ∧ I'.defn = I.defn ∧ SameWork I I' := by
      refine ⟨_, modI_self h0 _, ?_, ?_, ?_⟩
      · cases a.outputs <;> cases a.ret <;> rfl
      · cases a.outputs <;> cases a.ret <;> rfl
      · have hm : ∀ m, SameWork I ({ I with attrs := I.attrs.update a.sets }.modO o (fun x => { x with outputs := m })) :=
          fun m => (SameWork.of_objs rfl).trans (SameWork.modO _ o _ (fun _ => rfl))
        cases a.outputs with
        | none => cases a.ret <;> exact SameWork.of_objs rfl
        | some m => cases a.ret <;> exact (hm m).trans (SameWork.of_objs rfl)
    obtain ⟨I', h1, h2, h3⟩ := h1
    dsimp only
    split
    · exact ⟨I', h1, h2, h3⟩
    · split
      · rename_i hi
        subst hi
        exact ⟨_, modI_self h1 _, h2, h3.1, h3.2.trans (SameWork.of_objs rfl)⟩
      · exact ⟨I', h1, h2, h3⟩
  unfold Eng.callActivity
  dsimp only
  split
  · have hlt : i < e.insts.length := (List.getElem?_eq_some_iff.1 hI).1
    have : ∀ (f : Eng) (uri : String) (ins : AMap String Val), i < f.insts.length →
        (startSubFlow env f i o uri ins).1.insts[i]? = f.insts[i]? := by
      intro f uri ins hf
      unfold Eng.startSubFlow
      split
      · rfl
      · rfl
      · rename_i d _
        have h2 := (StartFrame.startInstance (env := env) f.insts.length (f.newEmbedded i o uri d) (subflowInputs d ins)).others i (by omega)
        rw [h2, newEmbedded_getElem? _ _ _ _ _ hf]
    rw [this _ _ _ (by simpa using hlt), h0]
    exact ⟨_, rfl, rfl, rfl, SameWork.of_objs rfl⟩
  · split <;> exact hact _


theorem inst_of_obj {e : Eng} {ob : Obj} (h : e.obj? i o = some ob) : ∃ I, e.insts[i]? = some I := by
  obtain ⟨I, hI, _⟩ := obj?_some h; exact ⟨I, hI⟩

theorem callActivity_count {e : Eng} {ob : Obj} (ho : e.obj? i o = some ob) (td : TaskDef) :
    callCount (e.callActivity env i o ob td).1 i = callCount e i + 1 := by
  obtain ⟨I, hI⟩ := inst_of_obj ho
  obtain ⟨I', hI', ht, _⟩ := callActivity_calls (env := env) (o := o) (ob := ob) td hI
  unfold callCount
  rw [calls_eq hI, calls_eq hI', ht]
  simp [List.filter_cons, isCall]

theorem Once.count {td : TaskDef} {e e' : Eng} {r : Except Err Bool} (h : Once env i o td e e' r) :
    callCount e' i ≤ callCount e i + 1 := by
  have hl : ∀ {a b : Eng}, LocalE true i o a b → callCount b i = callCount a i := fun h => by
    unfold callCount; rw [h.calls]
  cases h with
  | failed h => rw [hl h]; omega
  | skipped h => rw [hl h]; omega
  | callFailed h ho hc h' => rw [hl h', callActivity_count ho, hl h]; omega
  | callWaits h ho hc => rw [callActivity_count ho, hl h]; omega
  | callDone h ho hc h' hr => rw [hl h', callActivity_count ho, hl h]; omega

theorem evalOnce_count (e : Eng) : callCount (e.evalOnce env i o).1 i ≤ callCount e i + 1 := by
  cases ho : e.obj? i o with
  | none => unfold Eng.evalOnce; rw [ho]; simp
  | some ob =>
    cases htd : e.taskDef? i ob.task with
    | none => unfold Eng.evalOnce; rw [ho]; dsimp only; rw [htd]; simp
    | some td => exact (evalOnce_once ho htd).count

theorem retryFrom_retried (n : Nat) (e : Eng) : ∃ a as, Retried env i o a as n ∧ a.before = e.setRetry i o n ∧
    (lastAttempt a as).after = (retryFrom env n e i o).1 ∧ (lastAttempt a as).result = (retryFrom env n e i o).2 := by
  induction n generalizing e with
  | zero =>
    refine ⟨⟨e.setRetry i o 0, (evalOnce env (e.setRetry i o 0) i o).1, (evalOnce env (e.setRetry i o 0) i o).2⟩, [], ?_, rfl, rfl, rfl⟩
    exact ⟨rfl, fun _ => rfl⟩
  | succ n ih =>
    let a : Attempt := ⟨e.setRetry i o ((n : Int) + 1), (evalOnce env (e.setRetry i o (n + 1)) i o).1, (evalOnce env (e.setRetry i o (n + 1)) i o).2⟩
    have hreal : a.real env i o := rfl
    have single : ¬ a.again → retryFrom env (n + 1) e i o = (a.after, a.result) → ∃ a as, Retried env i o a as (n + 1) ∧
        a.before = e.setRetry i o ((n + 1 : Nat) : Int) ∧
        (lastAttempt a as).after = (retryFrom env (n + 1) e i o).1 ∧ (lastAttempt a as).result = (retryFrom env (n + 1) e i o).2 :=
      fun hna heq => ⟨a, [], ⟨hreal, fun h => absurd h hna⟩, rfl, by rw [heq]; rfl, by rw [heq]; rfl⟩
    cases hr : a.result with
    | ok b =>
      apply single
      · rintro ⟨err, h1, _⟩; rw [hr] at h1; cases h1
      · have : evalOnce env (e.setRetry i o (n + 1)) i o = (a.after, .ok b) := by rw [← hr]
        unfold retryFrom
        rw [this, hr]
    | error err =>
      have hev : evalOnce env (e.setRetry i o (n + 1)) i o = (a.after, .error err) := by rw [← hr]
      cases hb : err.retriable with
      | false =>
        apply single
        · rintro ⟨err', h1, h2⟩; rw [hr] at h1; cases h1; rw [hb] at h2; cases h2
        · unfold retryFrom
          rw [hev, hr]
          simp [hb]
      | true =>
        have heq : retryFrom env (n + 1) e i o = retryFrom env n a.after i o := by
          conv => lhs; unfold retryFrom
          rw [hev]
          simp [hb]
        obtain ⟨b, bs, h1, h2, h3, h4⟩ := ih a.after
        refine ⟨a, b :: bs, ⟨hreal, ⟨err, hr, hb⟩, ?_, h1⟩, rfl, ?_, ?_⟩
        · rw [h2]; exact Unseen.setRetry ..
        · rw [heq]; exact h3
        · rw [heq]; exact h4

theorem getRetry_spec (e : Eng) : (e.getRetry env i o).2 = retriesLeft env e i o := by
  unfold Eng.getRetry retriesLeft
  split
  · rename_i c hc; rw [hc]
  · rename_i hc; rw [hc]
    dsimp only
    split
    · rename_i h; rw [h]
    · rename_i h; rw [h]

theorem retried_count {a : Attempt} {as : List Attempt} {n : Nat} (h : Retried env i o a as n) :
    as.length ≤ n ∧ callCount (lastAttempt a as).after i ≤ callCount a.before i + as.length + 1 := by
  induction as generalizing a n with
  | nil =>
    refine ⟨Nat.zero_le _, ?_⟩
    have := evalOnce_count (env := env) (i := i) (o := o) a.before
    have hr : Eng.evalOnce env a.before i o = (a.after, a.result) := h.1
    rw [hr] at this
    exact this
  | cons b bs ih =>
    obtain ⟨hr, _, hu, h⟩ := h
    cases n with
    | zero => exact absurd h (fun h => h)
    | succ n =>
      obtain ⟨h1, h2⟩ := ih h
      have hr : Eng.evalOnce env a.before i o = (a.after, a.result) := hr
      have h3 := evalOnce_count (env := env) (i := i) (o := o) a.before
      rw [hr] at h3
      have h4 : callCount b.before i = callCount a.after i := by unfold callCount; rw [hu.calls]
      refine ⟨by simp; omega, ?_⟩
      show callCount (lastAttempt b bs).after i ≤ _
      simp only [List.length_cons]
      dsimp only at h3
      omega


theorem LocalE.retry {e e' : Eng} (h : LocalE true i o e e') :
    (e'.obj? i o).bind (·.retry) = (e.obj? i o).bind (·.retry) := by
  have := congrArg (fun x => x.bind (fun w : Option Int × Option Iter × Option (Val × Val × Int) × Option Nat => w.1)) h.work
  simp only [Option.bind_map] at this
  exact this

theorem callActivity_work {e : Eng} {ob : Obj} (ho : e.obj? i o = some ob) (td : TaskDef) :
    ((e.callActivity env i o ob td).1.obj? i o).map (fun x => (x.task, x.status, x.returnError, x.work)) =
      (e.obj? i o).map (fun x => (x.task, x.status, x.returnError, x.work)) := by
  obtain ⟨I, hI⟩ := inst_of_obj ho
  obtain ⟨I', hI', _, _, hw⟩ := callActivity_calls (env := env) (o := o) (ob := ob) td hI
  rw [obj?_eq hI, obj?_eq hI']
  exact hw o

theorem Once.retry {td : TaskDef} {e e' : Eng} {r : Except Err Bool} (h : Once env i o td e e' r) :
    (e'.obj? i o).bind (·.retry) = (e.obj? i o).bind (·.retry) := by
  have hcall : ∀ {c : Eng} {ob : Obj}, c.obj? i o = some ob →
      ((c.callActivity env i o ob td).1.obj? i o).bind (·.retry) = (c.obj? i o).bind (·.retry) := by
    intro c ob ho
    have := congrArg (fun x => x.bind (fun w : TaskRef × TaskStatus × Option Err × Option Int × Option Iter × Option (Val × Val × Int) × Option Nat => w.2.2.2.1))
      (callActivity_work (env := env) ho td)
    simp only [Option.bind_map] at this
    exact this
  cases h with
  | failed h => exact h.retry
  | skipped h => exact h.retry
  | callFailed h ho hc h' => exact (h'.retry.trans (hcall ho)).trans h.retry
  | callWaits h ho hc => exact (hcall ho).trans h.retry
  | callDone h ho hc h' hr => exact (h'.retry.trans (hcall ho)).trans h.retry

end Eng
end Flow
