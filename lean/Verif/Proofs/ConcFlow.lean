import Verif.Proofs.ConcTrace

/-
In concurrent mode: when the status of the flow changes.
-/

namespace Flow.Conc

open Spec

theorem status_findLinks (ls : List LinkDef) : ∀ I : Inst, (I.findLinks ls).status = I.status ∧ (I.findLinks ls).force = I.force := by
  induction ls with
  | nil => exact fun I => ⟨rfl, rfl⟩
  | cons l ls ih =>
    intro I
    have : (I.findLink l.id).status = I.status ∧ (I.findLink l.id).force = I.force := by
      unfold Inst.findLink
      split <;> exact ⟨rfl, rfl⟩
    exact ⟨((ih _).1).trans this.1, ((ih _).2).trans this.2⟩

theorem status_set (I : Inst) (o : Nat) (st : TaskStatus) : (I.setTaskStatus o st).status = I.status ∧ (I.setTaskStatus o st).force = I.force := by
  unfold Inst.setTaskStatus
  split <;> exact ⟨rfl, rfl⟩

theorem status_create (I : Inst) (t : TaskRef) : (I.findOrCreateTask t).1.status = I.status ∧ (I.findOrCreateTask t).1.force = I.force := by
  unfold Inst.findOrCreateTask
  split <;> exact ⟨rfl, rfl⟩

theorem status_release (I : Inst) (t : TaskRef) : (I.release t).status = I.status ∧ (I.release t).force = I.force := by
  unfold Inst.release
  generalize hJ : ({ I with tasks := I.tasks.del t.id, trace := .taskRemoved t.id :: I.trace } : Inst) = J
  have h0 : J.status = I.status ∧ J.force = I.force := by subst hJ; exact ⟨rfl, rfl⟩
  rw [← h0.1, ← h0.2]
  clear hJ h0
  generalize I.defn.fromLinks t = ls
  induction ls generalizing J with
  | nil => exact ⟨rfl, rfl⟩
  | cons l ls ih => exact ih { J with links := J.links.del l.id, trace := .linkRemoved l.id :: J.trace }

theorem status_enter (I : Inst) (o : Nat) (t : TaskRef) :
    (enteredInst (enterObj I o t).1 t (enterObj I o t).2).status = I.status ∧ (enteredInst (enterObj I o t).1 t (enterObj I o t).2).force = I.force := by
  have h1 : (enterObj I o t).1.status = I.status ∧ (enterObj I o t).1.force = I.force := by
    have h0 : ((I.setTaskStatus o .entered).findLinks (I.defn.fromLinks t)).status = I.status ∧
        ((I.setTaskStatus o .entered).findLinks (I.defn.fromLinks t)).force = I.force :=
      ⟨((status_findLinks _ _).1).trans (status_set _ _ _).1, ((status_findLinks _ _).2).trans (status_set _ _ _).2⟩
    unfold enterObj afterEnter
    dsimp only
    split
    · exact h0
    · exact ⟨((status_set _ _ _).1).trans h0.1, ((status_set _ _ _).2).trans h0.2⟩
    · exact ⟨((status_set _ _ _).1).trans h0.1, ((status_set _ _ _).2).trans h0.2⟩
  unfold enteredInst
  split
  · exact ⟨((status_findLinks _ _).1).trans h1.1, ((status_findLinks _ _).2).trans h1.2⟩
  · exact h1

/-- What a step does to the status of the flow, and to the mark of an explicit return. -/
theorem step_status {prio : Bool} {s s' : St} {l : Label} (h : step prio s l = some s') :
    (s'.inst.status = s.inst.status ∨ s'.inst.status = .failed ∨
      s'.inst.status = .completed ∧ s'.inst.trace = .flowStatus .completed :: s.inst.trace ∧ (s.inst.allDone = true ∨ s.inst.force = true)) ∧
    (s'.inst.force = true → s.inst.force = true ∨ ∃ g ev, l = .exec g (.done ev true)) := by
  cases l with
  | pop g =>
    unfold step pop at h
    dsimp only at h
    split at h
    · cases h
    · split at h
      · cases h; exact ⟨.inl rfl, .inl⟩
      · cases h
  | exec g r =>
    unfold step exec at h
    dsimp only at h
    split at h
    · split at h
      · cases h
      · split at h
        · cases h; exact ⟨.inl rfl, .inl⟩
        · cases h
          cases r with
          | done ev ret =>
            refine ⟨.inl (((status_set _ _ _).1).trans (status_findLinks _ _).1), fun hf => ?_⟩
            have hf : (((setForce s.inst ret).findLinks _).setTaskStatus _ .done).force = true := hf
            rw [(status_set _ _ _).2, (status_findLinks _ _).2] at hf
            have hf : (s.inst.force || ret) = true := hf
            cases ret with
            | false => rw [Bool.or_false] at hf; exact .inl hf
            | true => exact .inr ⟨g, ev, rfl⟩
          | error =>
            refine ⟨.inl (((status_findLinks _ _).1).trans (status_set _ _ _).1), fun hf => .inl ?_⟩
            have hf : ((s.inst.setTaskStatus _ .failed).findLinks _).force = true := hf
            rwa [(status_findLinks _ _).2, (status_set _ _ _).2] at hf
          | wait =>
            refine ⟨.inl (status_set _ _ _).1, fun hf => .inl ?_⟩
            have hf : (s.inst.setTaskStatus _ .waiting).force = true := hf
            rwa [(status_set _ _ _).2] at hf
          | again => exact ⟨.inl rfl, .inl⟩
    · cases h
  | next g =>
    unfold step next at h
    dsimp only at h
    split at h
    · cases h
    · cases h
    · cases h; exact ⟨.inl rfl, .inl⟩
    · cases h
      have : (setPtr s ‹_› ‹_›).status = s.inst.status ∧ (setPtr s ‹_› ‹_›).force = s.inst.force := by
        unfold setPtr
        split <;> exact ⟨rfl, rfl⟩
      exact ⟨.inl this.1, fun hf => .inl (this.2 ▸ hf)⟩
    · cases h
      unfold finishStep
      split
      · rename_i hc
        refine ⟨.inr (.inr ⟨rfl, rfl, ?_⟩), .inl⟩
        rcases Bool.or_eq_true .. ▸ hc with h1 | h1
        · exact .inl (Bool.and_eq_true .. ▸ h1).2
        · exact .inr h1
      · exact ⟨.inl rfl, .inl⟩
    · cases h
      unfold failStep
      split
      · exact ⟨.inr (.inl rfl), .inl⟩
      · split
        · exact ⟨.inl rfl, .inl⟩
        · exact ⟨.inr (.inl rfl), .inl⟩
    · split at h
      · cases h
      · cases h; exact ⟨.inl rfl, .inl⟩
    · cases h; exact ⟨.inl rfl, .inl⟩
    · cases h
      exact ⟨.inl (status_create _ _).1, fun hf => .inl ((status_create s.inst _).2 ▸ hf)⟩
    · split at h
      · cases h
      · cases h
        exact ⟨.inl (status_enter _ _ _).1, fun hf => .inl ((status_enter s.inst _ _).2 ▸ hf)⟩
    · cases h; exact ⟨.inl rfl, .inl⟩
    · cases h
      exact ⟨.inl (status_release _ _).1, fun hf => .inl ((status_release s.inst _).2 ▸ hf)⟩

/-- The mark of an explicit return is set by an activity that returned. -/
theorem force_runs {prio : Bool} : ∀ (ls : List Label) {s s' : St}, runs prio s ls = some s' → s'.inst.force = true →
    s.inst.force = true ∨ ∃ g ev, Label.exec g (.done ev true) ∈ ls
  | [], s, s', h, hf => by cases h; exact .inl hf
  | l :: ls, s, s', h, hf => by
    unfold runs at h
    cases hs : step prio s l with
    | none => rw [hs] at h; cases h
    | some s1 =>
      rw [hs] at h
      rcases force_runs ls h hf with h1 | ⟨g, ev, hm⟩
      · rcases (step_status hs).2 h1 with h2 | ⟨g, ev, e⟩
        · exact .inl h2
        · exact .inr ⟨g, ev, e ▸ List.mem_cons_self ..⟩
      · exact .inr ⟨g, ev, List.mem_cons_of_mem _ hm⟩

/-- All tasks of the table have ended. -/
theorem allDone_ended {I : Inst} (ok : InstOK I) (h : I.allDone = true) {k : TaskId} {o : Nat} (hl : liveTask I.trace k = some o) :
    lastStatus I.trace o = .done ∨ lastStatus I.trace o = .failed ∨ lastStatus I.trace o = .skipped := by
  have hg : I.tasks.get? k = some o := by rw [ok.mirror.task]; exact hl
  obtain ⟨ob, hob, _⟩ := ok.tasks k o hg
  unfold Inst.allDone at h
  have := List.all_eq_true.1 h (k, o) (AMap.mem_of_get? hg)
  dsimp only at this
  rw [hob] at this
  dsimp only at this
  rw [← ok.mirror.stat o ob hob]
  revert this
  cases ob.status <;> decide

end Flow.Conc
