import Verif.Proofs.Mock
import Verif.Proofs.Fail
import Verif.Proofs.Events

/-
Lemmas for C61: what holds for the result of every attempt to evaluate an activity holds for the evaluation of the task.
-/

namespace Flow
namespace Eng
open Spec

variable {env : Env} {i o : Nat} {t : TaskRef} {d : Def}

/-- Task instance `o` of flow instance `i` stands for task `t` of definition `d`. -/
def Stands (i o : Nat) (t : TaskRef) (d : Def) (e : Eng) : Prop :=
  ∃ (I : Inst) (ob : Obj), e.insts[i]? = some I ∧ I.objs[o]? = some ob ∧ ob.task = t ∧ I.defn = d

/-- Some other task. -/
def otherTask (t : TaskRef) : TaskRef := ⟨!t.eh, t.id⟩

theorem otherTask_ne (t : TaskRef) : t ≠ otherTask t := by
  intro h
  have := congrArg TaskRef.eh h
  simp [otherTask] at this

theorem Stands.held {e : Eng} (h : Stands i o t d e) : Held env i o (otherTask t) e := by
  obtain ⟨I, ob, hI, ho, ht, _⟩ := h
  refine ⟨I, hI, fun x hx => ?_⟩
  rw [ho] at hx; cases hx
  exact Or.inl (ht ▸ otherTask_ne t)

theorem Stands.keep {e e' : Eng} (h : Stands i o t d e) {t' : TaskRef} (hu : UncalledE i o t' e e') : Stands i o t d e' := by
  obtain ⟨I, ob, hI, ho, ht, hd⟩ := h
  obtain ⟨I', hI', h1⟩ := hu I hI
  have h2 := h1.task
  rw [ho] at h2
  cases hx : I'.objs[o]? with
  | none => rw [hx] at h2; cases h2
  | some x =>
    rw [hx] at h2
    have h3 : x.task = ob.task := by simpa using h2
    exact ⟨I', x, hI', hx, h3.trans ht, h1.defn.trans hd⟩

/-- A property of results that every error has and every attempt yields. -/
structure Attempts (env : Env) (i o : Nat) (t : TaskRef) (d : Def) (P : Except Err Bool → Prop) : Prop where
  err : ∀ e, P (.error e)
  once : ∀ f, Stands i o t d f → P (evalOnce env f i o).2

variable {P : Except Err Bool → Prop}

theorem Attempts.retry (hP : Attempts env i o t d P) (n : Nat) {e : Eng} (h : Stands i o t d e) :
    P (retryFrom env n e i o).2 := by
  induction n generalizing e with
  | zero => exact hP.once _ (h.keep (LocalE.uncalled (t := t) (LocalE.setRetry e 0)))
  | succ n ih =>
    have h0 := h.keep (LocalE.uncalled (t := t) (LocalE.setRetry (i := i) (o := o) e (n + 1)))
    have h1 := hP.once _ h0
    have h2 := h0.keep (evalOnce_uncalled (h0.held (env := env)))
    unfold Eng.retryFrom
    split
    · rename_i e1 err heq
      rw [heq] at h2
      split
      · exact ih h2
      · exact hP.err _
    · exact h1

theorem Attempts.activity (hP : Attempts env i o t d P) {e : Eng} (h : Stands i o t d e) : P (evalActivity env e i o).2 := by
  have h1 := hP.once _ h
  have h2 := h.keep (evalOnce_uncalled (h.held (env := env)))
  unfold Eng.evalActivity
  split
  · rename_i e1 d' heq
    rw [heq] at h1; exact h1
  · rename_i e1 err heq
    rw [heq] at h2
    have h3 := h2.keep (getRetry_uncalled (env := env) (i := i) (o := o) (t := t) e1)
    split
    · split
      · exact hP.err _
      · rename_i e2 c heq2
        rw [heq2] at h3
        split
        · exact hP.retry _ h3
        · exact hP.err _
    · exact hP.err _

theorem Stands.taskDef {e : Eng} (h : Stands i o t d e) : ∃ ob, e.obj? i o = some ob ∧ ob.task = t ∧ e.taskDef? i ob.task = d.task? t := by
  obtain ⟨I, ob, hI, ho, ht, hd⟩ := h
  refine ⟨ob, (obj?_eq hI).trans ho, ht, ?_⟩
  unfold Eng.taskDef?
  rw [hI]
  dsimp only
  rw [ht, hd]

/-- Unacceptable inputs make every attempt fail. -/
theorem attempts_input (hr : RejectsInput env i o) (hs : NotSkipped env t.id) :
    Attempts env i o t d (fun x => ∃ err, x = .error err) := by
  refine ⟨fun e => ⟨e, rfl⟩, fun f hf => ?_⟩
  obtain ⟨ob, ho, ht, htd⟩ := hf.taskDef
  unfold Eng.evalOnce
  rw [ho]; dsimp only
  rw [htd]
  cases hd : d.task? t with
  | none => exact ⟨_, rfl⟩
  | some td =>
    dsimp only
    split
    · exact ⟨_, rfl⟩
    · rename_i e1 heq
      rcases hr with hr | hr
      · obtain ⟨m, hm⟩ := hr f
        unfold Eng.applyInputMapper at heq
        rw [hm] at heq
        cases heq
      · unfold Eng.evalWith
        have hns : (e1.inputInterceptor env i o ob).2 ≠ false := by
          unfold Eng.inputInterceptor icpIn
          rw [ht]
          cases hc : env.icp t.id with
          | none => simp
          | some c => simp [hs c hc]
        rw [if_neg hns]
        obtain ⟨err, he⟩ := hr (e1.inputInterceptor env i o ob).1
        rw [he]
        exact ⟨_, rfl⟩

/-- If the part after the activity always fails, no attempt is successful. -/
theorem attempts_after (h : ∀ f ob td, d.task? t = some td → ob.task = t → ∃ err, (afterDone env f i o ob td).2 = .error err) :
    Attempts env i o t d (fun x => x ≠ .ok true) := by
  refine ⟨fun e => (nomatch ·), fun f hf => ?_⟩
  obtain ⟨ob, ho, ht, htd⟩ := hf.taskDef
  have key : ∀ g td, d.task? t = some td → (afterDone env g i o ob td).2 ≠ .ok true := by
    intro g td h1 h2
    obtain ⟨err, h3⟩ := h g ob td h1 ht
    rw [h2] at h3; cases h3
  unfold Eng.evalOnce
  rw [ho]; dsimp only
  rw [htd]
  cases hd : d.task? t with
  | none => exact (nomatch ·)
  | some td =>
    dsimp only
    split
    · exact (nomatch ·)
    · unfold Eng.evalWith
      split
      · exact key _ _ hd
      · split
        · exact (nomatch ·)
        · split
          · exact key _ _ hd
          · split
            · exact (nomatch ·)
            · exact key _ _ hd
            · exact (nomatch ·)

theorem attempts_output (hr : RejectsOutput env i o) : Attempts env i o t d (fun x => x ≠ .ok true) := by
  refine attempts_after (fun f ob td _ _ => ?_)
  obtain ⟨err, he⟩ := hr f
  unfold Eng.afterDone
  rw [he]
  exact ⟨err, rfl⟩

theorem attempts_outMap (hr : FailsOutputMap env i o) (ha : ∀ td, d.task? t = some td → td.accumulates = false) :
    Attempts env i o t d (fun x => x ≠ .ok true) := by
  refine attempts_after (fun f ob td htd _ => ?_)
  unfold Eng.afterDone
  split
  · exact ⟨_, rfl⟩
  · generalize outputInterceptor env f i o ob td = q
    obtain ⟨e1, x⟩ := q
    cases x with
    | some err => exact ⟨err, rfl⟩
    | none =>
      obtain ⟨vals, m, hm⟩ := hr e1
      unfold Eng.storeOutputs Eng.outputMapper Eng.andThen
      simp only [ha td htd, hm]
      exact ⟨_, rfl⟩

/-- The evaluation of a task instance that is not resumed. -/
theorem evaluates_stands {e e' : Eng} {r : EvalOut} (h : Evaluates env e i o t e' r) {I : Inst} (hI : e.insts[i]? = some I)
    {td : TaskDef} (htd : e.taskDef? i t = some td) (hnew : ∀ ob, e.obj? i o = some ob → ob.status ≠ .waiting) :
    ∃ f, Stands i o t I.defn f ∧ (e', r) = evalKind env f i o td := by
  obtain ⟨ob, ho, ht⟩ : ∃ ob, e.obj? i o = some ob ∧ ob.task = t := by
    have := h.task
    cases h : e.obj? i o with
    | none => rw [h] at this; cases this
    | some ob => rw [h] at this; cases this; exact ⟨ob, rfl, rfl⟩
  subst ht
  obtain ⟨w, _, _, _, _, h5⟩ := evaluates_eval h ho htd
  exact ⟨afterPop env e w, ⟨I, ob, hI, (obj?_eq hI).symm.trans ho, rfl, rfl⟩, h5 (hnew ob ho)⟩

theorem Stands.modO {e : Eng} (h : Stands i o t d e) (f : Obj → Obj)
    (hf : ∀ x, (f x).task = x.task ∧ (f x).status = x.status ∧ (f x).returnError = x.returnError) :
    Stands i o t d (e.modI i (fun I => I.modO o f)) :=
  h.keep (LocalE.uncalled (t := t) (LocalE.mk' (k := false) e _ (fun _ => .modO f hf (fun h => nomatch h))))

/-- If no attempt succeeds, no round of the task is successful, and only an iterator, if nothing is left, is done. -/
theorem evalKind_noSuccess {e : Eng} (hP : Attempts env i o t d (fun x => x ≠ .ok true)) (h : Stands i o t d e) (td : TaskDef) :
    (evalKind env e i o td).2 ≠ .res .again ∧ (td.kind ≠ .iterator → (evalKind env e i o td).2 ≠ .res .done) := by
  unfold Eng.evalKind
  split
  · have h1 := hP.activity h
    unfold Eng.evalBasic
    split
    · exact ⟨(nomatch ·), fun _ => (nomatch ·)⟩
    · rename_i heq; rw [heq] at h1; exact absurd rfl h1
    · exact ⟨(nomatch ·), fun _ => (nomatch ·)⟩
  · rename_i hk
    refine ⟨?_, fun hne => absurd hk hne⟩
    unfold Eng.evalIter
    split
    · exact (nomatch ·)
    · exact (nomatch ·)
    · rename_i it _
      dsimp only
      split
      · exact (nomatch ·)
      · split
        · exact (nomatch ·)
        · rename_i v _
          have h1 := hP.activity (h.modO (fun x => { x with iter := some it.next.1, iteration := some (it.next.1.key, v, it.next.1.current) })
            (fun _ => ⟨rfl, rfl, rfl⟩))
          split
          · exact (nomatch ·)
          · exact (nomatch ·)
          · rename_i heq
            rw [heq] at h1
            exact absurd rfl h1
  · have h1 := hP.activity (h.keep (LocalE.uncalled (t := t) (LocalE.dwInit e)))
    unfold Eng.evalDoWhile
    split
    · exact ⟨(nomatch ·), fun _ => (nomatch ·)⟩
    · exact ⟨(nomatch ·), fun _ => (nomatch ·)⟩
    · rename_i heq; rw [heq] at h1; exact absurd rfl h1

theorem evalKind_fails {e : Eng} (hP : Attempts env i o t d (fun x => ∃ err, x = .error err)) (h : Stands i o t d e) (td : TaskDef)
    (hk : td.kind ≠ .iterator) : ∃ err, (evalKind env e i o td).2 = .err err := by
  unfold Eng.evalKind
  split
  · obtain ⟨err, h1⟩ := hP.activity h
    unfold Eng.evalBasic
    split
    · exact ⟨_, rfl⟩
    · rename_i heq; rw [heq] at h1; cases h1
    · rename_i heq; rw [heq] at h1; cases h1
  · rename_i hk'; exact absurd hk' hk
  · obtain ⟨err, h1⟩ := hP.activity (h.keep (LocalE.uncalled (t := t) (LocalE.dwInit e)))
    unfold Eng.evalDoWhile
    split
    · exact ⟨_, rfl⟩
    · rename_i heq; rw [heq] at h1; cases h1
    · rename_i heq; rw [heq] at h1; cases h1

/-- The failure of a task is reported. -/
theorem evaluates_reported {e e' : Eng} {err : Err} (hr : Reachable env e) (h : Evaluates env e i o t e' (.err err)) :
    ∃ (I : Inst) (x : Option Err), (e.step env).insts[i]? = some I ∧ .task o t .failed x ∈ I.posted := by
  obtain ⟨⟨name, hs⟩, _, _, hin⟩ := evaluates_step h
  obtain ⟨ok, _, hrd⟩ := evaluates_good hr h
  obtain ⟨ob, ho, ht⟩ : ∃ ob, e'.obj? i o = some ob ∧ ob.task = t := by
    obtain ⟨I, ob, hI, _⟩ : ∃ (I : Inst) (ob : Obj), e.insts[i]? = some I ∧ I.objs[o]? = some ob := by
      have := h.task
      cases h : e.obj? i o with
      | none => rw [h] at this; cases this
      | some ob => obtain ⟨I, hI, ho⟩ := obj?_some h; exact ⟨I, ob, hI, ho⟩
    obtain ⟨I', ob', h1, h2, h3, _⟩ := hin I hI
    exact ⟨ob', (obj?_eq h1).trans h2, h3⟩
  obtain ⟨I', h3, h4⟩ := taskError_posted ok ho hrd err
  rw [ht] at h3 h4
  rw [hs]
  exact ⟨I', _, h3, h4⟩

end Eng
end Flow
