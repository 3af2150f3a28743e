import Verif.Proofs.Ops
import Verif.Spec.Executed

/-
What a step does to the work queue, and the invariants of a run.
-/

namespace Flow
open Spec

namespace Eng

variable {env : Env}

/-- From `e` to `e'` work items are added at the end of the queue, and none is removed. -/
def Adds (e e' : Eng) : Prop := ∃ l : List WorkItem, e'.queue = e.queue ++ l ∧ e'.qlog = (l.map QEv.added).reverse ++ e.qlog

theorem Adds.refl (e : Eng) : Adds e e := ⟨[], by simp, by simp⟩

theorem Adds.trans {e f g : Eng} (h1 : Adds e f) (h2 : Adds f g) : Adds e g := by
  obtain ⟨l1, h1, h1'⟩ := h1
  obtain ⟨l2, h2, h2'⟩ := h2
  exact ⟨l1 ++ l2, by rw [h2, h1, List.append_assoc], by rw [h2', h1']; simp⟩

theorem Adds.same {e e' : Eng} (h1 : e'.queue = e.queue) (h2 : e'.qlog = e.qlog) : Adds e e' := ⟨[], by simp [h1], by simp [h2]⟩

theorem Adds.modI (e : Eng) (i : Nat) (f : Inst → Inst) : Adds e (e.modI i f) := .same rfl rfl

theorem Adds.schedule (e : Eng) (i o : Nat) : Adds e (e.schedule i o) := ⟨[⟨e.wiCounter + 1, i, o⟩], rfl, rfl⟩

theorem Adds.enterStart (es : List TaskEntry) (i : Nat) (e : Eng) : Adds e (enterStart env e i es) := by
  induction es generalizing e with
  | nil => exact .refl _
  | cons x xs ih =>
    unfold Eng.enterStart
    split
    · exact .refl _
    · dsimp only
      split
      · split
        · exact ((Adds.modI e i _).trans (Adds.schedule _ _ _)).trans (ih _)
        · exact Adds.modI e i _
      · exact (Adds.modI e i _).trans (ih _)

theorem Adds.startInstance (e : Eng) (i : Nat) (ins : AMap String Val) : Adds e (startInstance env e i ins) := by
  unfold Eng.startInstance
  split
  · exact .refl _
  · exact (Adds.modI e i _).trans (Adds.enterStart _ _ _)

theorem Evals.adds {i o : Nat} {s : Option String} {e e' : Eng} (h : Evals env i o s e e') : Adds e e' := by
  induction h with
  | refl e => exact .refl _
  | inst e f h => exact .modI _ _ _
  | reply e r => exact .same rfl rfl
  | sub e uri d inputs _ _ _ => exact Adds.trans (Adds.same (e' := e.newEmbedded i o uri d) rfl rfl) (Adds.startInstance _ _ _)
  | trans _ _ ih1 ih2 => exact ih1.trans ih2

theorem Adds.complete (e : Eng) (i : Nat) : Adds e (e.complete i) := by
  unfold Eng.complete
  split
  · exact .refl _
  · dsimp only
    split
    · exact .modI _ _ _
    · split
      · exact .same rfl rfl
      · rename_i I _ _ _ hi ho _
        exact Adds.trans (((Adds.modI e i _).trans (Adds.modI _ hi _)).trans (Adds.schedule _ hi ho)) (Adds.same rfl rfl)

theorem Adds.failHost (e : Eng) (i : Nat) (err : Err) : Adds e (e.failHost i err) := by
  unfold Eng.failHost
  split
  · exact .refl _
  · split
    · exact .refl _
    · exact (Adds.modI e _ _).trans (Adds.schedule _ _ _)

theorem Adds.appendErrorData (e : Eng) (i : Nat) (t : TaskId) (err : Err) : Adds e (e.appendErrorData i t err) := .modI _ _ _

theorem Adds.globalError (e : Eng) (i : Nat) (err : Err) : Adds e (e.globalError i err) := by
  unfold Eng.globalError
  split
  · exact .refl _
  · split
    · exact .modI _ _ _
    · dsimp only
      split
      · exact .same rfl rfl
      · split
        · exact .same rfl rfl
        · exact Adds.trans (Adds.same rfl rfl) (Adds.failHost _ _ _)

theorem Adds.taskError (e : Eng) (i o : Nat) (t : TaskRef) (err : Err) : Adds e (e.taskError i o t err) := by
  unfold Eng.taskError
  split
  · exact .refl _
  · split
    · exact .same rfl rfl
    · dsimp only
      split
      · split
        · exact .same rfl rfl
        · exact Adds.trans (Adds.same rfl rfl) (Adds.failHost _ _ _)
      · exact Adds.trans (Adds.same rfl rfl) (Adds.globalError _ _ _)

theorem Adds.finishTask (e : Eng) (i : Nat) (t : TaskRef) (n : Bool) (es : List TaskEntry) (rest : List Frame) :
    Adds e (e.finishTask i t n es rest) := by
  unfold Eng.finishTask
  split
  · exact .refl _
  · split
    · exact (Adds.complete e i).trans (.same rfl rfl)
    · exact .same rfl rfl

theorem Adds.taskDone (e : Eng) (i o : Nat) (t : TaskRef) : Adds e (e.taskDone env i o t) := by
  unfold Eng.taskDone
  split
  · exact .refl _
  · split
    · exact Adds.trans (Adds.same rfl rfl) (Adds.globalError _ _ _)
    · exact (Adds.modI e i _).trans (Adds.finishTask _ _ _ _ _ _)

theorem Adds.taskSkipped (e : Eng) (i o : Nat) (rest : List Frame) : Adds e (e.taskSkipped i o rest) := by
  unfold Eng.taskSkipped
  split
  · exact .refl _
  · split
    · exact .same rfl rfl
    · exact (Adds.modI e i _).trans (Adds.finishTask _ _ _ _ _ _)

theorem Adds.handleResult (e : Eng) (i o : Nat) (t : TaskRef) (name : String) (r : EvalOut) :
    Adds e (e.handleResult env i o t name r) := by
  unfold Eng.handleResult
  split
  · exact Adds.taskError _ _ _ _ _
  · exact Adds.taskDone _ _ _ _
  · exact Adds.taskDone _ _ _ _
  · exact Adds.modI _ _ _
  · exact Adds.modI _ _ _
  · exact Adds.schedule _ _ _
  · split
    · exact .refl _
    · split
      · exact .refl _
      · exact Adds.trans (Adds.same rfl rfl) (Adds.globalError _ _ _)

theorem Adds.exec (e : Eng) (i o : Nat) : Adds e (e.exec env i o) := by
  cases h : outcome env e i o with
  | none => rw [exec_none h]; exact .refl _
  | some p =>
    obtain ⟨e', r⟩ := p
    cases ho : e.obj? i o with
    | none => unfold Spec.outcome at h; rw [ho] at h; cases h
    | some ob =>
      obtain ⟨td, _, h2⟩ := exec_outcome ho h
      rw [h2]
      obtain ⟨e1, hev, h1⟩ := outcome_evals h
      refine Adds.trans ?_ (Adds.handleResult _ _ _ _ _ _)
      rcases h1 with h1 | ⟨st, h1⟩
      · subst h1; exact hev.adds
      · subst h1; exact hev.adds.trans (.modI _ _ _)

theorem Adds.inner {e : Eng} (h : e.stack ≠ []) : Adds e (e.step env) := by
  unfold Eng.step
  split
  · rename_i hs; exact absurd hs h
  · exact .same rfl rfl
  · rename_i x xs rest _
    unfold Eng.enterEntry
    split
    · exact .same rfl rfl
    · dsimp only
      split
      · exact .same rfl rfl
      · split
        · exact Adds.trans (Adds.trans (Adds.modI e e.cur _) (Adds.schedule _ _ _)) (Adds.same rfl rfl)
        · exact .same rfl rfl
      · exact (Adds.modI e e.cur _).trans (Adds.taskSkipped _ _ _ _)
  · exact .same rfl rfl

/-- A step takes the next item, if there is one, and adds items at the end. -/
theorem step_adds {e : Eng} (hl : 0 < e.insts.length) :
    match Spec.next env e with
    | some w => Adds (afterPop env e w) (e.step env)
    | none => Adds e (e.step env) := by
  cases h : Spec.next env e with
  | some w => rw [step_next h]; exact Adds.exec _ _ _
  | none =>
    by_cases hst : e.stack = []
    · rw [step_idle hst h hl]; exact .same rfl rfl
    · exact Adds.inner hst

/-- The number of work items executed so far. -/
theorem step_executed {e : Eng} (hl : 0 < e.insts.length) :
    executed (e.step env) = executed e + if (Spec.next env e).isSome then 1 else 0 := by
  have hA : ∀ {f g : Eng}, Adds f g → executed g = executed f := by
    rintro f g ⟨l, _, h⟩
    unfold Spec.executed
    rw [h, List.countP_append]
    have : List.countP isRemoved (List.map QEv.added l).reverse = 0 := by
      rw [List.countP_eq_zero]
      intro x hx
      rw [List.mem_reverse, List.mem_map] at hx
      obtain ⟨y, _, rfl⟩ := hx
      simp [Spec.isRemoved]
    omega
  have h := step_adds (env := env) hl
  cases hn : Spec.next env e with
  | none => rw [hn] at h; simpa using hA h
  | some w =>
    rw [hn] at h
    rw [hA h]
    show List.countP isRemoved (QEv.removed w :: e.qlog) = List.countP isRemoved e.qlog + 1
    rw [List.countP_cons]; rfl

theorem Ops.length {i : Nat} {q : Option Nat} {e e' : Eng} (h : Ops env i q e e') : e.insts.length ≤ e'.insts.length := by
  induction h with
  | refl e => exact Nat.le_refl _
  | trans _ _ ih1 ih2 => omega
  | ctl h => rw [h]; exact Nat.le_refl _
  | @sub e o uri d inputs =>
    rw [(StartFrame.startInstance (env := env) e.insts.length (e.newEmbedded i o uri d) inputs).len, newEmbedded_length]
    omega
  | _ => rw [modI_length]; exact Nat.le_refl _

end Eng

namespace Run

variable {env : Env} {c : RunCfg}

/-- What the run has done before it reports. -/
structure Inv (env : Env) (c : RunCfg) (r0 r : Run) : Prop where
  results : r.results = r0.results
  len : 0 < r.eng.insts.length
  count : r0.count ≤ r.count
  limit : r.count ≤ max r0.count c.limit
  executed : (executed r.eng : Int) ≤ executed r0.eng + (r.count - r0.count)
  work : r.hasWork = false → r.eng.stack = [] ∧ (flowStatus r.eng 0 ≠ some .active ∨ r.eng.queue = [])

theorem insts_mono (env : Env) {e : Eng} (hl : 0 < e.insts.length) : 0 < (e.step env).insts.length := by
  have := (Eng.Ops.step (env := env) hl).length; omega

theorem inv_step {r0 r : Run} (h : Inv env c r0 r) (hd : r.done = false) :
    (Inv env c r0 (r.step env c) ∧ (r.step env c).done = false) ∨
    (r.step env c = r.report c ∧ r.eng.stack = [] ∧ ∀ s, flowStatus r.eng 0 = some s → r.goesOn c s = false) := by
  unfold Run.step
  rw [if_neg (by simp [hd])]
  cases hst : r.eng.stack with
  | cons f fs =>
    refine Or.inl ⟨⟨h.results, insts_mono env h.len, h.count, h.limit, ?_, ?_⟩, hd⟩
    · have h1 := Eng.step_executed (env := env) h.len
      have h2 : Spec.next env r.eng = none := by unfold Spec.next; rw [if_neg (by simp [hst])]
      rw [h2] at h1
      have := h.executed
      simp only [Option.isSome_none, Bool.false_eq_true, if_false, Nat.add_zero] at h1
      show ((executed (r.eng.step env) : Nat) : Int) ≤ _ + (r.count - _)
      rw [h1]; exact this
    · intro hw
      have := (h.work hw).1
      rw [hst] at this; cases this
  | nil =>
    dsimp only
    obtain ⟨I, hI⟩ : ∃ I, r.eng.insts[0]? = some I := ⟨_, List.getElem?_eq_getElem h.len⟩
    rw [hI]
    dsimp only
    have hfs : flowStatus r.eng 0 = some I.status := by unfold Spec.flowStatus; rw [hI]; rfl
    split
    · rename_i hg
      have hg' := hg
      unfold Run.goesOn at hg'
      simp only [Bool.and_eq_true, decide_eq_true_eq] at hg'
      refine Or.inl ⟨⟨h.results, insts_mono env h.len, ?_, ?_, ?_, ?_⟩, hd⟩
      · have := h.count; show r0.count ≤ r.count + 1; omega
      · show r.count + 1 ≤ _; omega
      · have h1 := Eng.step_executed (env := env) h.len
        have := h.executed
        show ((executed (r.eng.step env) : Nat) : Int) ≤ _ + (r.count + 1 - _)
        rw [h1]
        split <;> push_cast <;> omega
      · intro hw
        have hn : Spec.next env r.eng = none := by
          unfold Spec.next
          split
          · rename_i hx
            rw [hfs] at hx
            have ha : I.status = .active := Option.some.inj hx.2
            simp only [ha] at hw
            have : r.eng.queue = [] := by simpa using hw
            rw [this]; rfl
          · rfl
        show (r.eng.step env).stack = [] ∧ (flowStatus (r.eng.step env) 0 ≠ _ ∨ (r.eng.step env).queue = [])
        rw [Eng.step_idle hst hn h.len]
        refine ⟨by first | exact hst | rfl, ?_⟩
        by_cases ha : I.status = .active
        · simp only [ha] at hw
          right; simpa using hw
        · left
          show flowStatus r.eng 0 ≠ _
          rw [hfs]; exact fun h => ha (Option.some.inj h)
    · rename_i hg
      refine Or.inr ⟨rfl, rfl, ?_⟩
      intro s hs
      rw [hfs] at hs; cases hs
      simpa using hg

theorem report_done (r : Run) : (r.report c).done = true := by
  unfold Run.report
  split
  · rfl
  · split
    · rfl
    · split <;> rfl

theorem step_done {r : Run} (h : r.done = true) : r.step env c = r := by unfold Run.step; rw [if_pos h]

/-- A run is either still going on, or it has reported once. -/
theorem run_cases {r0 : Run} (hd : r0.done = false) (hl : 0 < r0.eng.insts.length) (hw : r0.hasWork = true) (n : Nat) :
    (Inv env c r0 (run env c r0 n) ∧ (run env c r0 n).done = false) ∨
    ∃ m, m < n ∧ Inv env c r0 (run env c r0 m) ∧ (run env c r0 m).done = false ∧ run env c r0 n = (run env c r0 m).report c ∧
      run env c r0 (m + 1) = (run env c r0 m).report c ∧
      (run env c r0 m).eng.stack = [] ∧ ∀ s, flowStatus (run env c r0 m).eng 0 = some s → (run env c r0 m).goesOn c s = false := by
  induction n with
  | zero =>
    exact Or.inl ⟨⟨rfl, hl, Int.le_refl _, by show r0.count ≤ _; omega, by show (executed r0.eng : Int) ≤ executed r0.eng + (r0.count - r0.count); omega,
      fun h => by rw [show (run env c r0 0).hasWork = true from hw] at h; cases h⟩, hd⟩
  | succ n ih =>
    rcases ih with ⟨h1, h2⟩ | ⟨m, hm, h1, h2, h3, h0, h4, h5⟩
    · rcases inv_step h1 h2 with h | ⟨ha, hb, hc⟩
      · exact Or.inl h
      · exact Or.inr ⟨n, by omega, h1, h2, ha, ha, hb, hc⟩
    · refine Or.inr ⟨m, by omega, h1, h2, ?_, h0, h4, h5⟩
      show (run env c r0 n).step env c = _
      rw [step_done (by rw [h3]; exact report_done _), h3]

/-- The states of the engine during a run are states of the engine alone. -/
theorem run_eng {r0 : Run} (n : Nat) (hd : (run env c r0 n).done = false) : (run env c r0 n).eng = Eng.run env r0.eng n := by
  induction n with
  | zero => rfl
  | succ n ih =>
    have hd' : (run env c r0 n).done = false := by
      cases h : (run env c r0 n).done with
      | false => rfl
      | true =>
        have : run env c r0 (n + 1) = run env c r0 n := step_done h
        rw [this, h] at hd; exact hd
    have hm := ih hd'
    have hs : run env c r0 (n + 1) = (run env c r0 n).step env c := rfl
    rw [hs] at hd ⊢
    have : ((run env c r0 n).step env c).eng = (run env c r0 n).eng.step env := by
      unfold Run.step at hd ⊢
      rw [if_neg (by simp [hd'])] at hd ⊢
      cases hst : (run env c r0 n).eng.stack with
      | cons f fs => rfl
      | nil =>
        rw [hst] at hd
        dsimp only at hd ⊢
        split at hd
        · rw [report_done] at hd; cases hd
        · split at hd
          · rename_i h1 h2
            rw [if_pos h2]
          · rw [report_done] at hd; cases hd
    rw [this, hm]; rfl

end Run

end Flow
