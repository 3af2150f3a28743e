import Verif.Proofs.ConcObjs

/-
In concurrent mode: who can wait for the lock of `enterTasks`.
-/

namespace Flow.Conc

theorem step_keeps {prio : Bool} {s s' : St} {l : Label} (h : step prio s l = some s') : Keeps s.inst s'.inst := by
  cases l with
  | pop g =>
    unfold step pop at h
    dsimp only at h
    split at h
    · cases h
    · split at h
      · cases h; exact .rfl
      · cases h
  | exec g r =>
    unfold step exec at h
    dsimp only at h
    split at h
    · split at h
      · cases h
      · split at h
        · cases h; exact .rfl
        · cases h
          cases r with
          | done ev ret => exact ((keeps_force _ _).trans (keeps_findLinks _ _)).trans (keeps_status _ _ _)
          | error => exact (keeps_status _ _ _).trans (keeps_findLinks _ _)
          | wait => exact keeps_status _ _ _
          | again => exact .rfl
    · cases h
  | next g =>
    unfold step next at h
    dsimp only at h
    split at h
    · cases h
    · cases h
    · cases h; exact .rfl
    · cases h; exact keeps_ptr _ _ _
    · cases h
      unfold finishStep
      split
      · exact keeps_flow _ _
      · exact .rfl
    · cases h
      unfold failStep
      split
      · exact keeps_flow _ _
      · split
        · exact keeps_clear _
        · exact .same' rfl rfl rfl rfl
    · split at h
      · cases h
      · cases h; exact .rfl
    · cases h; exact .rfl
    · cases h; exact keeps_create _ _
    · split at h
      · cases h
      · cases h; exact (keeps_enterObj _ _ _).trans (keeps_entered _ _ _)
    · cases h; exact .rfl
    · cases h; exact keeps_release _ _

/-- Some task was reported as skipped. -/
def Skipped (s : St) : Prop := ∃ o t, Flow.Ev.taskStatus o t .skipped ∈ s.inst.trace

theorem setStatus_event {I : Inst} {o : Nat} {ob : Obj} (h : I.objs[o]? = some ob) (st : TaskStatus) :
    .taskStatus o ob.task st ∈ (I.setTaskStatus o st).trace := by
  unfold Inst.setTaskStatus
  rw [h]
  exact List.mem_cons_self ..

theorem enterObj_skip {I : Inst} {o : Nat} {ob : Obj} (h : I.objs[o]? = some ob) (hs : (enterObj I o ob.task).2 = .skip) :
    ∃ p t, Flow.Ev.taskStatus p t .skipped ∈ (enterObj I o ob.task).1.trace := by
  have hk := (keeps_status I o .entered).trans (keeps_findLinks (I.defn.fromLinks ob.task) _)
  have hs : enterCase I ob.task = .skip := hs
  show ∃ p t, Flow.Ev.taskStatus p t .skipped ∈ (afterEnter _ o (enterCase I ob.task)).trace
  rw [hs]
  obtain ⟨ob', hob'⟩ : ∃ ob', ((I.setTaskStatus o .entered).findLinks (I.defn.fromLinks ob.task)).objs[o]? = some ob' := by
    have hlt : o < I.objs.length := by
      rcases Nat.lt_or_ge o I.objs.length with h2 | h2
      · exact h2
      · rw [List.getElem?_eq_none h2] at h; cases h
    exact ⟨_, List.getElem?_eq_getElem (Nat.lt_of_lt_of_le hlt hk.len)⟩
  exact ⟨o, ob'.task, setStatus_event hob' _⟩

/-- As long as no task was skipped, only the first frame of a goroutine can hold the lock. -/
def TopOK (s : St) : Prop := Skipped s ∨ ∀ g f rest, s.gs g = f :: rest → rest.countP holding = 0

theorem TopOK.init (d : Def) (uri : String) : TopOK (init d uri) := by
  refine .inr (fun g f rest h => ?_)
  have h : (if g = 0 then [Fr.lock (Inst.startEntries d false)] else []) = f :: rest := h
  split at h
  · cases h; rfl
  · cases h

theorem Skipped.step {prio : Bool} {s s' : St} {l : Label} (hs : step prio s l = some s') (h : Skipped s) : Skipped s' := by
  obtain ⟨o, t, h⟩ := h
  exact ⟨o, t, (step_keeps hs).trace _ h⟩

/-- A step of one goroutine that puts frames in place of the first one; only the first of them may hold the lock. -/
theorem TopOK.move {s s' : St} (hok : ∀ g f rest, s.gs g = f :: rest → rest.countP holding = 0) {g : Nat} {f : Fr} {rest fs : List Fr}
    (hg : s.gs g = f :: rest) (hg' : s'.gs = (s.goto g (fs ++ rest)).gs) (hfs : (fs.drop 1).countP holding = 0) :
    TopOK s' := by
  refine .inr (fun h f' rest' hh => ?_)
  rw [hg', goto_gs] at hh
  have hr := hok g f rest hg
  split at hh
  · cases fs with
    | nil =>
      rw [List.nil_append] at hh
      rw [hh] at hr
      cases hb : holding f'
      · rw [List.countP_cons_of_neg (by simp [hb])] at hr; exact hr
      · rw [List.countP_cons_of_pos hb] at hr; omega
    | cons x xs =>
      cases hh
      show (xs ++ rest).countP holding = 0
      rw [List.countP_append]
      have : xs.countP holding = 0 := hfs
      omega
  · exact hok h f' rest' hh

theorem TopOK.step {prio : Bool} {s s' : St} {l : Label} (ok : TopOK s) (h : step prio s l = some s') : TopOK s' := by
  rcases ok with ok | ok
  · exact .inl (ok.step h)
  have h0 := h
  cases l with
  | pop g =>
    unfold Conc.step Conc.pop at h
    dsimp only at h
    split at h
    · cases h
    · split at h
      · cases h
        refine .inr (fun k f rest hh => ?_)
        have hh : (St.goto _ g _).gs k = f :: rest := hh
        rw [goto_gs] at hh
        split at hh
        · cases hh; rfl
        · exact ok k f rest hh
      · cases h
  | exec g r =>
    unfold Conc.step Conc.exec at h
    dsimp only at h
    split at h
    · rename_i o rest hg
      split at h
      · cases h
      · rename_i ob _
        split at h
        · cases h; exact TopOK.move ok hg (fs := []) rfl rfl
        · cases h
          cases r with
          | done ev ret =>
            unfold execObj
            dsimp only
            cases hd : doneRows prio ev (s.inst.defn.toLinks ob.task) with
            | error p => exact TopOK.move ok hg (fs := [.rows _ (doneSets p.2), .fail]) (by rw [doneFrames, hd]; rfl) rfl
            | ok rows => exact TopOK.move ok hg (fs := [.rows _ (doneSets rows), .finish ..]) (by rw [doneFrames, hd]; rfl) rfl
          | error =>
            unfold execObj
            dsimp only
            cases hd : errorRows (s.inst.defn.toLinks ob.task) with
            | none => exact TopOK.move ok hg (fs := [.fail]) (by rw [errorFrames, hd]; rfl) rfl
            | some rows => exact TopOK.move ok hg (fs := [.rows _ (plainSets rows), .lock _, .release _]) (by rw [errorFrames, hd]; rfl) rfl
          | wait => exact TopOK.move ok hg (fs := []) rfl rfl
          | again => exact TopOK.move ok hg (fs := []) rfl rfl
    · cases h
  | next g =>
    unfold Conc.step Conc.next at h
    dsimp only at h
    split at h
    · cases h
    · cases h
    · rename_i rest hg; cases h; exact TopOK.move ok hg (fs := []) rfl rfl
    · rename_i gen r rs rest hg; cases h; exact TopOK.move ok hg (fs := [.rows gen rs]) rfl rfl
    · rename_i t n es rest hg
      cases h
      unfold finishStep
      split
      · exact TopOK.move ok hg (fs := [.release t]) rfl rfl
      · exact TopOK.move ok hg (fs := [.lock es, .release t]) rfl rfl
    · rename_i rest hg
      cases h
      unfold failStep
      split
      · exact TopOK.move ok hg (fs := []) rfl rfl
      · split
        · exact TopOK.move ok hg (fs := [.lock _]) rfl rfl
        · exact TopOK.move ok hg (fs := []) rfl rfl
    · rename_i es rest hg
      split at h
      · cases h
      · cases h; exact TopOK.move ok hg (fs := [.enter es]) rfl rfl
    · rename_i rest hg; cases h; exact TopOK.move ok hg (fs := []) rfl rfl
    · rename_i x xs rest hg
      cases h
      unfold testStep
      split
      · exact TopOK.move ok hg (fs := [.enter xs]) rfl rfl
      · exact TopOK.move ok hg (fs := [.test _ xs]) rfl rfl
    · rename_i o es rest hg
      split at h
      · cases h
      · rename_i ob hob
        cases hr : (enterObj s.inst o ob.task).2 with
        | notReady =>
          rw [hr] at h; cases h
          exact TopOK.move ok hg (fs := [.enter es]) rfl rfl
        | eval =>
          rw [hr] at h; cases h
          exact TopOK.move ok hg (fs := [.push o es]) rfl rfl
        | skip =>
          cases h
          obtain ⟨o', t', hev⟩ := enterObj_skip hob hr
          exact .inl ⟨o', t', (keeps_entered _ _ _).trace _ hev⟩
    · rename_i o es rest hg; cases h; exact TopOK.move ok hg (fs := [.enter es]) rfl rfl
    · rename_i t rest hg; cases h; exact TopOK.move ok hg (fs := []) rfl rfl

theorem TopOK.reach {prio : Bool} {d : Def} {uri : String} {s : St} (h : Reach prio d uri s) : TopOK s := by
  induction h with
  | init => exact TopOK.init d uri
  | step _ hs ih => exact ih.step hs

/-- A goroutine can take a step. -/
def CanMove (prio : Bool) (s : St) (g : Nat) : Prop := (∃ r s', exec prio s g r = some s') ∨ ∃ s', next s g = some s'

/-- Only waiting for the lock can stop an unfinished goroutine. -/
theorem blocked {prio : Bool} {s : St} (ok : ObjsOK s) {g : Nat} (hg : s.gs g ≠ []) (hb : ¬ CanMove prio s g) :
    ∃ es rest, s.gs g = .lock es :: rest ∧ s.lock.isSome := by
  cases hs : s.gs g with
  | nil => exact absurd hs hg
  | cons f rest =>
    have hget : ∀ o, objOf f = some o → ∃ ob, s.inst.objs[o]? = some ob := fun o ho =>
      ⟨_, List.getElem?_eq_getElem (ok.frames g f o (by rw [hs]; exact List.mem_cons_self ..) ho)⟩
    cases f with
    | run o =>
      obtain ⟨ob, hob⟩ := hget o rfl
      refine absurd (.inl ⟨.wait, ?_⟩) hb
      unfold exec
      rw [hs]
      dsimp only
      rw [hob]
      dsimp only
      split
      · exact ⟨_, rfl⟩
      · exact ⟨_, rfl⟩
    | test o es =>
      obtain ⟨ob, hob⟩ := hget o rfl
      refine absurd (.inr ?_) hb
      unfold next
      rw [hs]
      dsimp only
      rw [hob]
      exact ⟨_, rfl⟩
    | lock es =>
      refine ⟨es, rest, rfl, ?_⟩
      cases hl : s.lock.isSome
      · refine absurd (.inr ?_) hb
        unfold next
        rw [hs]
        dsimp only
        rw [hl]
        exact ⟨_, rfl⟩
      · rfl
    | rows gen rs => cases rs <;> exact absurd (.inr (by unfold next; rw [hs]; exact ⟨_, rfl⟩)) hb
    | enter es => cases es <;> exact absurd (.inr (by unfold next; rw [hs]; exact ⟨_, rfl⟩)) hb
    | finish t n es => exact absurd (.inr (by unfold next; rw [hs]; exact ⟨_, rfl⟩)) hb
    | fail => exact absurd (.inr (by unfold next; rw [hs]; exact ⟨_, rfl⟩)) hb
    | push o es => exact absurd (.inr (by unfold next; rw [hs]; exact ⟨_, rfl⟩)) hb
    | release t => exact absurd (.inr (by unfold next; rw [hs]; exact ⟨_, rfl⟩)) hb

/-- A goroutine that waits for a lock it holds itself. -/
def Stuck (s : St) (g : Nat) : Prop := s.lock = some g ∧ ∃ es rest, s.gs g = .lock es :: rest

theorem exec_other {prio : Bool} {s s' : St} {g h : Nat} {r : Res} (hne : h ≠ g) (hs : exec prio s g r = some s') :
    s'.gs h = s.gs h ∧ s'.lock = s.lock := by
  unfold exec at hs
  split at hs
  · split at hs
    · cases hs
    · split at hs
      · cases hs; exact ⟨goto_ne _ _ hne, rfl⟩
      · cases hs
        cases r <;> exact ⟨goto_ne _ _ hne, rfl⟩
  · cases hs

/-- Other goroutines do not touch the frames of `h`, and cannot take or give back its lock. -/
theorem next_other {s s' : St} (ok : LockOK s) {g h : Nat} (hne : h ≠ g) (hl : s.lock = some h) (hs : next s g = some s') :
    s'.gs h = s.gs h ∧ s'.lock = some h := by
  have hno : ∀ f rest, s.gs g = f :: rest → holding f = false := by
    intro f rest hg
    have := ok.held g
    rw [hg, hl, if_neg (by simpa using hne)] at this
    cases hf : holding f
    · rfl
    · rw [List.countP_cons_of_pos hf] at this; omega
  unfold next at hs
  split at hs
  · cases hs
  · cases hs
  · cases hs; exact ⟨goto_ne _ _ hne, hl⟩
  · cases hs; exact ⟨goto_ne _ _ hne, hl⟩
  · cases hs
    unfold finishStep
    split
    · exact ⟨goto_ne _ _ hne, hl⟩
    · exact ⟨goto_ne _ _ hne, hl⟩
  · cases hs
    unfold failStep
    split
    · exact ⟨goto_ne _ _ hne, hl⟩
    · split
      · exact ⟨goto_ne _ _ hne, hl⟩
      · exact ⟨goto_ne _ _ hne, hl⟩
  · rw [hl] at hs; cases hs
  · rename_i hg; have := hno _ _ hg; cases this
  · rename_i hg; have := hno _ _ hg; cases this
  · rename_i hg; have := hno _ _ hg; cases this
  · rename_i hg; have := hno _ _ hg; cases this
  · cases hs; exact ⟨goto_ne _ _ hne, hl⟩

theorem Stuck.step {prio : Bool} {s s' : St} {l : Label} {g : Nat} (ok : LockOK s) (h : Stuck s g) (hs : step prio s l = some s') :
    s'.gs g = s.gs g ∧ s'.lock = some g := by
  obtain ⟨hl, es, rest, hg⟩ := h
  cases l with
  | pop k =>
    unfold Conc.step Conc.pop at hs
    dsimp only at hs
    split at hs
    · cases hs
    · split at hs
      · rename_i hc
        cases hs
        refine ⟨goto_ne _ _ (fun e => ?_), hl⟩
        subst e
        rw [hg] at hc
        simp at hc
      · cases hs
  | exec k r =>
    by_cases e : g = k
    · subst e
      unfold Conc.step Conc.exec at hs
      dsimp only at hs
      rw [hg] at hs
      cases hs
    · exact ⟨(exec_other e hs).1, (exec_other e hs).2.trans hl⟩
  | next k =>
    by_cases e : g = k
    · subst e
      unfold Conc.step Conc.next at hs
      dsimp only at hs
      rw [hg] at hs
      dsimp only at hs
      rw [hl] at hs
      cases hs
    · exact next_other ok e hl hs

end Flow.Conc
