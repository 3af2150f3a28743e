import Verif.Model.Concurrent

/-
Mutual exclusion in concurrent mode: frames of `enterTasks` after `Lock` belong to the holder of the lock.
-/

namespace Flow.Conc

/-- Frames of `enterTasks` that run while the lock is held. -/
def holding : Fr → Bool
  | .enter _ => true
  | .test _ _ => true
  | .push _ _ => true
  | _ => false

@[simp] theorem goto_self (s : St) (g : Nat) (fs : List Fr) : (s.goto g fs).gs g = fs := by simp [St.goto]
theorem goto_ne (s : St) {g h : Nat} (fs : List Fr) (hn : h ≠ g) : (s.goto g fs).gs h = s.gs h := by simp [St.goto, hn]
theorem goto_gs (s : St) (g h : Nat) (fs : List Fr) : (s.goto g fs).gs h = if h = g then fs else s.gs h := rfl

/-- A task instance is before its scheduling in some goroutine. -/
def Chosen (fs : List Fr) (o : Nat) : Prop := ∃ es, .test o es ∈ fs ∨ .push o es ∈ fs

theorem Chosen.tail {f : Fr} {fs : List Fr} {o : Nat} (h : Chosen fs o) : Chosen (f :: fs) o := by
  obtain ⟨es, h⟩ := h
  exact ⟨es, h.elim (fun h => .inl (List.mem_cons_of_mem _ h)) (fun h => .inr (List.mem_cons_of_mem _ h))⟩

theorem chosen_cons {f : Fr} {fs : List Fr} {o : Nat} :
    Chosen (f :: fs) o ↔ (∃ es, f = .test o es ∨ f = .push o es) ∨ Chosen fs o := by
  constructor
  · rintro ⟨es, h | h⟩
    · rcases List.mem_cons.mp h with h | h
      · exact .inl ⟨es, .inl h.symm⟩
      · exact .inr ⟨es, .inl h⟩
    · rcases List.mem_cons.mp h with h | h
      · exact .inl ⟨es, .inr h.symm⟩
      · exact .inr ⟨es, .inr h⟩
  · rintro (⟨es, h | h⟩ | h)
    · exact ⟨es, .inl (h ▸ List.mem_cons_self ..)⟩
    · exact ⟨es, .inr (h ▸ List.mem_cons_self ..)⟩
    · exact h.tail

/-- Frames that hold a chosen task instance. -/
def choosing : Fr → Bool
  | .test _ _ => true
  | .push _ _ => true
  | _ => false

theorem Chosen.under {f : Fr} {fs : List Fr} {o : Nat} (h : Chosen (f :: fs) o) (hf : choosing f = false) : Chosen fs o := by
  rcases chosen_cons.mp h with ⟨es, h | h⟩ | h
  · rw [h] at hf; cases hf
  · rw [h] at hf; cases hf
  · exact h

theorem Chosen.holding {fs : List Fr} {o : Nat} (h : Chosen fs o) : 0 < fs.countP holding := by
  obtain ⟨es, h | h⟩ := h
  · exact List.countP_pos_iff.mpr ⟨_, h, rfl⟩
  · exact List.countP_pos_iff.mpr ⟨_, h, rfl⟩

/-- The lock is held by the goroutine inside `enterTasks`; a task instance that is about to be scheduled was not
scheduled before; the log agrees with the flags. -/
structure LockOK (s : St) : Prop where
  held : ∀ g, (s.gs g).countP holding = if s.lock = some g then 1 else 0
  fresh : ∀ g o, Chosen (s.gs g) o → s.scheduled o = false
  log : ∀ o, s.log.count (.entered o) = if s.scheduled o then 1 else 0

theorem LockOK.init (d : Def) (uri : String) : LockOK (init d uri) := by
  refine ⟨fun g => ?_, fun g o h => rfl, fun o => rfl⟩
  show (if g = 0 then [Fr.lock (Inst.startEntries d false)] else []).countP holding = _
  split <;> rfl

/-- A step that changes the frames of one goroutine but neither lock nor flags. -/
theorem LockOK.move {s s' : St} (ok : LockOK s) {g : Nat} {fs : List Fr} (hg : s'.gs = (s.goto g fs).gs) (hl : s'.lock = s.lock)
    (hs : s'.scheduled = s.scheduled) (hlog : ∀ o, s'.log.count (.entered o) = s.log.count (.entered o))
    (hc : fs.countP holding = (s.gs g).countP holding)
    (hf : ∀ o, Chosen fs o → Chosen (s.gs g) o ∨ s.scheduled o = false) : LockOK s' := by
  refine ⟨fun h => ?_, fun h o hh => ?_, fun o => ?_⟩
  · rw [hg, hl, goto_gs]
    split
    · rename_i e; subst e; rw [hc]; exact ok.held _
    · exact ok.held h
  · rw [hs]
    rw [hg, goto_gs] at hh
    split at hh
    · rcases hf o hh with h1 | h1
      · exact ok.fresh _ _ h1
      · exact h1
    · exact ok.fresh _ _ hh
  · rw [hlog, hs]; exact ok.log o

theorem countP_doneFrames (prio : Bool) (ev : LinkDef → ExprOut) (I : Inst) (gen : LinkId → Nat) (t : TaskRef) (rest : List Fr) :
    (doneFrames prio ev I gen t rest).countP holding = rest.countP holding ∧
      ∀ o, Chosen (doneFrames prio ev I gen t rest) o → Chosen rest o := by
  unfold doneFrames
  split <;>
    exact ⟨rfl, fun o h => by
      replace h := (h.under rfl).under rfl
      exact h⟩

theorem countP_errorFrames (I : Inst) (gen : LinkId → Nat) (t : TaskRef) (rest : List Fr) :
    (errorFrames I gen t rest).countP holding = rest.countP holding ∧ ∀ o, Chosen (errorFrames I gen t rest) o → Chosen rest o := by
  unfold errorFrames
  split
  · exact ⟨rfl, fun o h => by
      replace h := h.under rfl
      exact h⟩
  · exact ⟨rfl, fun o h => by
      replace h := ((h.under rfl).under rfl).under rfl
      exact h⟩

theorem LockOK.exec {prio : Bool} {s s' : St} (ok : LockOK s) {g : Nat} {r : Res} (h : exec prio s g r = some s') : LockOK s' := by
  unfold Conc.exec at h
  split at h
  · rename_i o rest hg
    have hcons : (s.gs g).countP holding = rest.countP holding := by rw [hg]; rfl
    have htail : ∀ o, Chosen rest o → Chosen (s.gs g) o := fun o h => by rw [hg]; exact h.tail
    split at h
    · cases h
    · rename_i ob _
      split at h
      · cases h
        exact ok.move (g := g) (fs := rest) rfl rfl rfl (fun _ => rfl) hcons.symm (fun o h => .inl (htail o h))
      · cases h
        cases r with
        | done ev ret =>
          have := countP_doneFrames prio ev s.inst s.gen ob.task rest
          exact ok.move (g := g) rfl rfl rfl (fun _ => rfl) (this.1.trans hcons.symm) (fun o h => .inl (htail o (this.2 o h)))
        | error =>
          have := countP_errorFrames s.inst s.gen ob.task rest
          exact ok.move (g := g) rfl rfl rfl (fun _ => rfl) (this.1.trans hcons.symm) (fun o h => .inl (htail o (this.2 o h)))
        | wait => exact ok.move (g := g) (fs := rest) rfl rfl rfl (fun _ => rfl) hcons.symm (fun o h => .inl (htail o h))
        | again =>
          refine ok.move (g := g) (fs := rest) rfl rfl rfl (fun _ => ?_) hcons.symm (fun o h => .inl (htail o h))
          exact List.count_cons_of_ne (by simp)
  · cases h

theorem LockOK.pop {s s' : St} (ok : LockOK s) {g : Nat} (h : pop s g = some s') : LockOK s' := by
  unfold Conc.pop at h
  split at h
  · cases h
  · rename_i o q _
    split at h
    · rename_i hc
      cases h
      have hg : s.gs g = [] := List.isEmpty_iff.mp hc.2.2.1
      refine ok.move (g := g) (fs := [.run o]) rfl rfl rfl (fun _ => rfl) (by rw [hg]; rfl) (fun o h => ?_)
      rcases chosen_cons.mp h with ⟨es, h | h⟩ | ⟨es, h | h⟩ <;> cases h
    · cases h

theorem LockOK.next {s s' : St} (ok : LockOK s) {g : Nat} (h : next s g = some s') : LockOK s' := by
  unfold Conc.next at h
  split at h
  · cases h
  · cases h
  · -- rows []
    rename_i rest hg
    cases h
    exact ok.move (g := g) rfl rfl rfl (fun _ => rfl) (by rw [hg]; rfl) (fun o h => .inl (by rw [hg]; exact h.tail))
  · -- rows
    rename_i gen r rs rest hg
    cases h
    refine ok.move (g := g) (fs := .rows gen rs :: rest) rfl rfl rfl (fun _ => rfl) (by rw [hg]; rfl) (fun o h => .inl ?_)
    rw [hg]
    replace h := h.under rfl
    exact h.tail
  · -- finish
    rename_i t n es rest hg
    cases h
    unfold finishStep
    split
    · refine ok.move (g := g) (fs := .release t :: rest) rfl rfl rfl (fun _ => rfl) (by rw [hg]; rfl) (fun o h => .inl ?_)
      rw [hg]
      replace h := h.under rfl
      exact h.tail
    · refine ok.move (g := g) (fs := .lock es :: .release t :: rest) rfl rfl rfl (fun _ => rfl) (by rw [hg]; rfl) (fun o h => .inl ?_)
      rw [hg]
      replace h := (h.under rfl).under rfl
      exact h.tail
  · -- fail
    rename_i rest hg
    cases h
    unfold failStep
    split
    · exact ok.move (g := g) (fs := rest) rfl rfl rfl (fun _ => rfl) (by rw [hg]; rfl) (fun o h => .inl (by rw [hg]; exact h.tail))
    · split
      · refine ok.move (g := g) (fs := .lock _ :: rest) rfl rfl rfl (fun _ => rfl) (by rw [hg]; rfl) (fun o h => .inl ?_)
        rw [hg]
        replace h := h.under rfl
        exact h.tail
      · exact ok.move (g := g) (fs := rest) rfl rfl rfl (fun _ => rfl) (by rw [hg]; rfl) (fun o h => .inl (by rw [hg]; exact h.tail))
  · -- lock
    rename_i es rest hg
    split at h
    · cases h
    · rename_i hl
      have hl : s.lock = none := by cases hh : s.lock <;> simp [hh] at hl ⊢
      cases h
      refine ⟨fun h => ?_, fun h o hh => ?_, ok.log⟩
      · show (((s.goto g (.enter es :: rest)).gs h).countP holding) = if some g = some h then 1 else 0
        rw [goto_gs]
        have := ok.held h
        rw [hl] at this
        by_cases e : h = g
        · subst e
          rw [hg] at this
          have h2 : rest.countP holding = 0 := this
          rw [if_pos rfl, if_pos rfl, List.countP_cons_of_pos rfl, h2]
        · rw [if_neg e, if_neg (by simpa using fun x => e x.symm)]
          exact this
      · show s.scheduled o = false
        have hh : Chosen ((s.goto g (.enter es :: rest)).gs h) o := hh
        rw [goto_gs] at hh
        split at hh
        · exact ok.fresh g o (by rw [hg]; exact (hh.under rfl).tail)
        · exact ok.fresh h o hh
  · -- enter []
    rename_i rest hg
    cases h
    have hlk : s.lock = some g := by
      have := ok.held g
      rw [hg] at this
      split at this
      · assumption
      · simp [holding] at this
    refine ⟨fun h => ?_, fun h o hh => ?_, ok.log⟩
    · show ((s.goto g rest).gs h).countP holding = if none = some h then 1 else 0
      rw [goto_gs]
      have := ok.held h
      rw [hlk] at this
      by_cases e : h = g
      · subst e
        rw [hg] at this
        rw [if_pos rfl, List.countP_cons_of_pos rfl] at this
        rw [if_pos rfl, if_neg (by simp)]
        omega
      · rw [if_neg e]
        rw [if_neg (by simpa using fun x => e x.symm)] at this
        simpa using this
    · show s.scheduled o = false
      have hh : Chosen ((s.goto g rest).gs h) o := hh
      rw [goto_gs] at hh
      split at hh
      · exact ok.fresh g o (by rw [hg]; exact hh.tail)
      · exact ok.fresh h o hh
  · -- enter
    rename_i x xs rest hg
    cases h
    unfold testStep
    split
    · refine ok.move (g := g) (fs := .enter xs :: rest) rfl rfl rfl (fun _ => rfl) (by rw [hg]; rfl) (fun o h => .inl ?_)
      rw [hg]
      replace h := h.under rfl
      exact h.tail
    · rename_i hns
      refine ok.move (g := g) (fs := .test _ xs :: rest) rfl rfl rfl (fun _ => rfl) (by rw [hg]; rfl) (fun o h => ?_)
      rcases chosen_cons.mp h with ⟨es, h | h⟩ | h
      · cases h; exact .inr (by simpa using hns)
      · cases h
      · exact .inl (by rw [hg]; exact h.tail)
  · -- test
    rename_i o es rest hg
    split at h
    · cases h
    · rename_i ob _
      cases h
      refine ok.move (g := g) rfl rfl rfl (fun _ => rfl) (?_ : (enteredFrames s.inst s.gen o ob.task es rest _).countP holding = _) (fun p h => .inl ?_)
      · rw [hg]; cases (enterObj s.inst o ob.task).2 <;> rfl
      · rw [hg]
        cases hr : (enterObj s.inst o ob.task).2 <;> rw [hr] at h
        · replace h := h.under rfl
          exact h.tail
        · rcases chosen_cons.mp h with ⟨es, h | h⟩ | h
          · cases h
          · cases h; exact chosen_cons.mpr (.inl ⟨_, .inl rfl⟩)
          · exact h.tail
        · replace h := ((h.under rfl).under rfl).under rfl
          exact h.tail
  · -- push
    rename_i o es rest hg
    cases h
    have hlk : s.lock = some g := by
      have := ok.held g
      rw [hg] at this
      split at this
      · assumption
      · simp [holding] at this
    have hfresh : s.scheduled o = false := ok.fresh g o (by rw [hg]; exact chosen_cons.mpr (.inl ⟨_, .inr rfl⟩))
    have hrest : rest.countP holding = 0 := by
      have := ok.held g
      rw [hg, hlk, if_pos rfl, List.countP_cons_of_pos rfl] at this
      omega
    refine ⟨fun h => ?_, fun h p hh => ?_, fun p => ?_⟩
    · show (((s.goto g (.enter es :: rest)).gs h).countP holding) = if s.lock = some h then 1 else 0
      rw [goto_gs]
      by_cases e : h = g
      · subst e
        rw [if_pos rfl, if_pos hlk, List.countP_cons_of_pos rfl, hrest]
      · rw [if_neg e]; exact ok.held h
    · exfalso
      have hh : Chosen ((s.goto g (.enter es :: rest)).gs h) p := hh
      rw [goto_gs] at hh
      split at hh
      · have := (hh.under rfl).holding
        omega
      · rename_i hne
        have h1 := hh.holding
        rw [ok.held h, hlk, if_neg (by simpa using fun x => hne x.symm)] at h1
        omega
    · show (Ev.entered o :: s.log).count (.entered p) = if (if p = o then true else s.scheduled p) then 1 else 0
      by_cases e : p = o
      · subst e
        have := ok.log p
        rw [hfresh] at this
        simp [this]
      · rw [List.count_cons_of_ne (by simpa using fun x => e x.symm), if_neg e]
        exact ok.log p
  · -- release
    rename_i t rest hg
    cases h
    exact ok.move (g := g) rfl rfl rfl (fun _ => rfl) (by rw [hg]; rfl) (fun o h => .inl (by rw [hg]; exact h.tail))

theorem LockOK.reach {prio : Bool} {d : Def} {uri : String} {s : St} (h : Reach prio d uri s) : LockOK s := by
  induction h with
  | init => exact LockOK.init d uri
  | step _ hs ih =>
    rename_i l _
    cases l with
    | pop g => exact ih.pop hs
    | exec g r => exact ih.exec hs
    | next g => exact ih.next hs

end Flow.Conc
