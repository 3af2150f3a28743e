import Verif.Proofs.Status

/-
The step in terms of the work item taken and the outcome of its task.
-/

namespace Flow
open Spec

namespace Eng

variable {env : Env}

theorem next_some {e : Eng} {w : WorkItem} (h : next env e = some w) :
    e.stack = [] ∧ flowStatus e 0 = some .active ∧ e.queue[env.pick e % e.queue.length]? = some w := by
  unfold Spec.next at h
  split at h
  · rename_i hc; exact ⟨hc.1, hc.2, h⟩
  · cases h

theorem step_next {e : Eng} {w : WorkItem} (h : next env e = some w) :
    e.step env = exec env (afterPop env e w) w.inst w.obj := by
  obtain ⟨h1, h2, h3⟩ := next_some h
  unfold Eng.step
  rw [h1]
  dsimp only
  unfold Eng.doStep
  unfold Spec.flowStatus at h2
  cases hI : e.insts[0]? with
  | none => rw [hI] at h2; simp at h2
  | some I =>
    rw [hI] at h2; simp at h2
    dsimp only
    rw [if_pos h2, h3]
    simp [Spec.afterPop]

theorem step_idle {e : Eng} (hs : e.stack = []) (h : next env e = none) (hl : 0 < e.insts.length) :
    e.step env = { e with stepID := e.stepID + 1 } := by
  unfold Eng.step
  rw [hs]
  dsimp only
  unfold Eng.doStep
  rw [List.getElem?_eq_getElem hl]
  dsimp only
  split
  · rename_i ha
    have : flowStatus e 0 = some .active := by
      unfold Spec.flowStatus; rw [List.getElem?_eq_getElem hl]; simp [ha]
    unfold Spec.next at h
    rw [if_pos ⟨hs, this⟩] at h
    rw [h, hs]
  · rw [hs]

theorem exec_outcome {e : Eng} {i o : Nat} {ob : Obj} (ho : e.obj? i o = some ob) {e' : Eng} {r : EvalOut}
    (h : outcome env e i o = some (e', r)) :
    ∃ td, e.taskDef? i ob.task = some td ∧ exec env e i o = handleResult env e' i o ob.task td.name r := by
  unfold Spec.outcome at h
  rw [ho] at h
  dsimp only at h
  cases htd : e.taskDef? i ob.task with
  | none => rw [htd] at h; cases h
  | some td =>
    rw [htd] at h
    dsimp only at h
    refine ⟨td, rfl, ?_⟩
    unfold Eng.exec
    rw [ho]
    dsimp only
    rw [htd]
    dsimp only
    split at h
    · rename_i hw
      rw [hw]
      simp only [Option.some.injEq] at h
      simp [h]
    · rename_i hw
      split at h
      · cases h
      · rename_i hn
        simp only [Option.some.injEq] at h
        split
        · rename_i h2; exact absurd h2 hw
        · rename_i h2; exact absurd (Or.inl h2) hn
        · rename_i h2; exact absurd (Or.inr h2) hn
        · simp [h]

theorem exec_none {e : Eng} {i o : Nat} (h : outcome env e i o = none) : exec env e i o = e := by
  unfold Spec.outcome at h
  unfold Eng.exec
  cases ho : e.obj? i o with
  | none => rfl
  | some ob =>
    rw [ho] at h
    dsimp only at h ⊢
    cases htd : e.taskDef? i ob.task with
    | none => rfl
    | some td =>
      rw [htd] at h
      dsimp only at h ⊢
      split at h
      · cases h
      · rename_i hw
        split at h
        · rename_i hn
          split
          · rename_i h2; exact absurd h2 hw
          · rfl
          · rfl
          · rename_i h2 h3 h4
            rcases hn with h5 | h5
            · exact absurd h5 h3
            · exact absurd h5 h4
        · cases h

/-- The state after an evaluation: reached by evaluation effects, up to the status of the evaluated task instance. -/
theorem outcome_evals {e : Eng} {i o : Nat} {e' : Eng} {r : EvalOut} (h : outcome env e i o = some (e', r)) :
    ∃ e1, Evals env i o (e.subOf i o) e e1 ∧ (e' = e1 ∨ ∃ st, e' = e1.setStatus i o st) := by
  unfold Spec.outcome at h
  cases ho : e.obj? i o with
  | none => rw [ho] at h; cases h
  | some ob =>
    rw [ho] at h
    dsimp only at h
    cases htd : e.taskDef? i ob.task with
    | none => rw [htd] at h; cases h
    | some td =>
      rw [htd] at h
      dsimp only at h
      split at h
      · obtain ⟨e1, hev, heff⟩ := postKind_spec (env := env) ho td
        simp only [Option.some.injEq] at h
        rw [h] at heff
        refine ⟨e1, hev, ?_⟩
        cases r with
        | res r =>
          cases r <;> simp only [PostEff] at heff
          · rcases heff with heff | heff
            · exact Or.inl heff
            · exact Or.inr ⟨_, heff⟩
          · exact Or.inr ⟨_, heff⟩
          · exact Or.inl heff
        | err er =>
          simp only [PostEff] at heff
          rcases heff with heff | heff | heff
          · exact Or.inl heff
          · exact Or.inr ⟨_, heff⟩
          · exact Or.inr ⟨_, heff⟩
        | panic m => exact Or.inr ⟨_, heff⟩
      · split at h
        · cases h
        · obtain ⟨e1, hev, heff⟩ := evalKind_spec (env := env) ho td
          simp only [Option.some.injEq] at h
          rw [h] at heff
          refine ⟨e1, hev, ?_⟩
          cases r with
          | res r =>
            cases r <;> simp only [EvalEff] at heff
            · exact Or.inl heff
            · exact Or.inl heff
            · rcases heff with heff | heff
              · exact Or.inl heff
              · exact Or.inr ⟨_, heff⟩
          | err er =>
            simp only [EvalEff] at heff
            rcases heff with heff | heff
            · exact Or.inl heff
            · exact Or.inr ⟨_, heff⟩
          | panic m => exact Or.inl heff

/-- The evaluating instance after an evaluation. -/
theorem outcome_inst {e : Eng} {i o : Nat} {e' : Eng} {r : EvalOut} (h : outcome env e i o = some (e', r)) {I : Inst}
    (hI : e.insts[i]? = some I) :
    ∃ I', e'.insts[i]? = some I' ∧ I'.defn = I.defn ∧ I'.handling = I.handling ∧ I'.status = I.status ∧
      I'.host = I.host ∧ I'.subflowId = I.subflowId ∧ I'.links = I.links ∧ I'.tasks = I.tasks ∧
      (I.force = true → I'.force = true) ∧
      (∀ (p : Nat) ob, I.objs[p]? = some ob → ∃ ob', I'.objs[p]? = some ob' ∧ ob'.task = ob.task) := by
  obtain ⟨e1, hev, h1⟩ := outcome_evals h
  obtain ⟨I1, hI1, hs⟩ := hev.obj.2.1 I hI
  have hobj : ∀ (p : Nat) ob, I.objs[p]? = some ob → ∃ ob', I1.objs[p]? = some ob' ∧ ob'.task = ob.task := by
    intro p ob hp
    obtain ⟨ob', a, b, _⟩ := hs.task_eq' hp
    exact ⟨ob', a, b⟩
  rcases h1 with h1 | ⟨st, h1⟩
  · subst h1
    exact ⟨I1, hI1, hs.defn, hs.handling, hs.status, hs.host, hs.subflowId, hs.links, hs.tasks, hs.force, hobj⟩
  · subst h1
    have hc := Calm.setTaskStatus I1 o st
    refine ⟨I1.setTaskStatus o st, modI_self hI1 _, hc.defn.trans hs.defn, hc.handling.trans hs.handling, hc.status.trans hs.status,
      hc.host.trans hs.host, hc.subflowId.trans hs.subflowId, ?_, ?_, fun hf => by rw [hc.force]; exact hs.force hf, ?_⟩
    · rw [← hs.links]; unfold Inst.setTaskStatus; split <;> rfl
    · rw [← hs.tasks]; unfold Inst.setTaskStatus; split <;> rfl
    · intro p ob hp
      obtain ⟨ob1, a, b⟩ := hobj p ob hp
      unfold Inst.setTaskStatus
      split
      · exact ⟨ob1, a, b⟩
      · obtain ⟨ob2, c, d⟩ := modify_objs (o := o) (f := fun x => { x with status := st }) (fun _ => rfl) p ob1 a
        exact ⟨ob2, c, d.trans b⟩

/-- An evaluation starts no error handler. -/
theorem outcome_starts {e : Eng} {i o : Nat} {e' : Eng} {r : EvalOut} (h : outcome env e i o = some (e', r)) {I I' : Inst}
    (hI : e.insts[i]? = some I) (hI' : e'.insts[i]? = some I') :
    I'.trace.filter (· = .ehStart) = I.trace.filter (· = .ehStart) := by
  obtain ⟨e1, hev, h1⟩ := outcome_evals h
  obtain ⟨I1, hI1, hs⟩ := hev.obj.2.1 I hI
  have key : I1.trace.filter (· = .ehStart) = I.trace.filter (· = .ehStart) := by
    obtain ⟨evs, h2, h3⟩ := hs.trace
    rw [h2, List.filter_append]
    have : evs.filter (· = .ehStart) = [] := by
      rw [List.filter_eq_nil_iff]
      intro a ha hc
      obtain ⟨ob, _, h4 | h4⟩ := h3 a ha <;> rw [h4] at hc <;> simp at hc
    rw [this, List.nil_append]
  rcases h1 with h1 | ⟨st, h1⟩
  · subst h1; rw [hI1] at hI'; cases hI'; exact key
  · subst h1
    have : (e1.setStatus i o st).insts[i]? = some (I1.setTaskStatus o st) := modI_self hI1 _
    rw [this] at hI'; cases hI'
    exact (Calm.setTaskStatus I1 o st).starts.trans key

/-- Instances other than the evaluating one are not touched by an evaluation. -/
theorem outcome_other {e : Eng} {i o : Nat} {e' : Eng} {r : EvalOut} (h : outcome env e i o = some (e', r)) {j : Nat}
    (hj : j ≠ i) (hl : j < e.insts.length) : e'.insts[j]? = e.insts[j]? := by
  obtain ⟨e1, hev, h1⟩ := outcome_evals h
  have := hev.obj.2.2.1 j hj hl
  rcases h1 with h1 | ⟨st, h1⟩
  · subst h1; exact this
  · subst h1
    unfold Eng.setStatus
    rw [modI_ne (Ne.symm hj)]; exact this

theorem outcome_ctl {e : Eng} {i o : Nat} {e' : Eng} {r : EvalOut} (h : outcome env e i o = some (e', r)) :
    e'.stack = e.stack ∧ e'.cur = e.cur ∧ e'.stepID = e.stepID ∧ e'.id = e.id ∧ e.insts.length ≤ e'.insts.length := by
  obtain ⟨e1, hev, h1⟩ := outcome_evals h
  obtain ⟨a, _, _, b, c, d, f⟩ := hev.obj
  rcases h1 with h1 | ⟨st, h1⟩
  · subst h1; exact ⟨b, c, d, f, a⟩
  · subst h1; exact ⟨b, c, d, f, by simpa [Eng.setStatus] using a⟩

/-- The work item taken refers to an existing task instance whose task became ready. -/
theorem next_readied {e : Eng} (hr : Reachable env e) {w : WorkItem} (h : next env e = some w) :
    Readied (afterPop env e w) w.inst w.obj := by
  have ok := engOK_reachable hr
  exact ok.queue w (List.mem_of_getElem? (next_some h).2.2)

end Eng
end Flow
