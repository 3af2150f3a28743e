import Verif.Proofs.Concurrent
import Verif.Proofs.Base

/-
In concurrent mode: the task instances that goroutines, queue and task table refer to exist.
-/

namespace Flow.Conc

/-- The task table refers to existing task instances. -/
def TabOK (I : Inst) : Prop := ∀ k o, I.tasks.get? k = some o → o < I.objs.length

/-- Task instances are never lost. -/
structure Keeps (I J : Inst) : Prop where
  tab : TabOK I → TabOK J
  len : I.objs.length ≤ J.objs.length
  defn : J.defn = I.defn
  trace : ∀ ev ∈ I.trace, ev ∈ J.trace

theorem Keeps.rfl {I : Inst} : Keeps I I := ⟨id, Nat.le_refl _, Eq.refl _, fun _ h => h⟩

theorem Keeps.trans {I J K : Inst} (h : Keeps I J) (h' : Keeps J K) : Keeps I K :=
  ⟨fun t => h'.tab (h.tab t), Nat.le_trans h.len h'.len, h'.defn.trans h.defn, fun ev he => h'.trace ev (h.trace ev he)⟩

/-- Same table, same number of task instances. -/
theorem Keeps.same {I J : Inst} (h1 : J.tasks = I.tasks) (h2 : J.objs.length = I.objs.length) (h3 : J.defn = I.defn)
    (h4 : ∀ ev ∈ I.trace, ev ∈ J.trace) : Keeps I J :=
  ⟨fun t k o h => by rw [h2]; rw [h1] at h; exact t k o h, by omega, h3, h4⟩

/-- One more event. -/
theorem more {ev : Flow.Ev} {l : List Flow.Ev} : ∀ x ∈ l, x ∈ ev :: l := fun _ h => List.mem_cons_of_mem _ h

theorem Keeps.same' {I J : Inst} (h1 : J.tasks = I.tasks) (h2 : J.objs.length = I.objs.length) (h3 : J.defn = I.defn)
    {ev : Flow.Ev} (h4 : J.trace = ev :: I.trace) : Keeps I J := .same h1 h2 h3 (by rw [h4]; exact more)

theorem keeps_status (I : Inst) (o : Nat) (s : TaskStatus) : Keeps I (I.setTaskStatus o s) := by
  unfold Inst.setTaskStatus
  split
  · exact .rfl
  · exact .same' (Eq.refl _) (by simp) (Eq.refl _) (Eq.refl _)

theorem keeps_flow (I : Inst) (s : FlowStatus) : Keeps I (I.setFlowStatus s) := .same' (Eq.refl _) (Eq.refl _) (Eq.refl _) (Eq.refl _)

theorem keeps_link (I : Inst) (l : LinkId) (s : LinkStatus) : Keeps I (I.setLink l s) := .same' (Eq.refl _) (Eq.refl _) (Eq.refl _) (Eq.refl _)

theorem keeps_ptr (s : St) (gen : LinkId → Nat) (r : LinkDef × LinkStatus) : Keeps s.inst (setPtr s gen r) := by
  unfold setPtr
  split
  · exact keeps_link _ _ _
  · exact .rfl

theorem keeps_findLink (I : Inst) (l : LinkId) : Keeps I (I.findLink l) := by
  unfold Inst.findLink
  split
  · exact .rfl
  · exact .same' (Eq.refl _) (Eq.refl _) (Eq.refl _) (Eq.refl _)

theorem keeps_findLinks (ls : List LinkDef) : ∀ I : Inst, Keeps I (I.findLinks ls) := by
  induction ls with
  | nil => exact fun I => .rfl
  | cons l ls ih => exact fun I => (keeps_findLink I l.id).trans (ih _)

theorem keeps_force (I : Inst) (b : Bool) : Keeps I (setForce I b) := .same (Eq.refl _) (Eq.refl _) (Eq.refl _) (fun _ h => h)

theorem keeps_clear (I : Inst) : Keeps I ({ I with handling := true } : Inst).clearTasks :=
  ⟨fun _ _ _ h => (by cases h), Nat.le_refl _, Eq.refl _, more⟩

theorem keeps_create (I : Inst) (t : TaskRef) : Keeps I (I.findOrCreateTask t).1 := by
  unfold Inst.findOrCreateTask
  split
  · exact .rfl
  · refine ⟨fun h k o hk => ?_, by simp, Eq.refl _, more⟩
    show o < (I.objs ++ [_]).length
    simp only [List.length_append, List.length_singleton]
    by_cases e : k = t.id
    · subst e
      have : (I.tasks.set t.id I.objs.length).get? t.id = some o := hk
      rw [AMap.get?_set_self] at this
      cases this
      omega
    · have : (I.tasks.set t.id I.objs.length).get? k = some o := hk
      rw [AMap.get?_set, if_neg (fun x => e x.symm)] at this
      have := h k o this
      omega

theorem create_lt {I : Inst} (h : TabOK I) (t : TaskRef) :
    (I.findOrCreateTask t).2 < (I.findOrCreateTask t).1.objs.length := by
  unfold Inst.findOrCreateTask
  split
  · rename_i o ho; exact h _ _ ho
  · simp

theorem keeps_release (I : Inst) (t : TaskRef) : Keeps I (I.release t) := by
  have h0 : Keeps I { I with tasks := I.tasks.del t.id, trace := .taskRemoved t.id :: I.trace } := by
    refine ⟨fun h k o hk => ?_, Nat.le_refl _, Eq.refl _, more⟩
    have hk : (I.tasks.del t.id).get? k = some o := hk
    by_cases e : k = t.id
    · subst e; rw [AMap.get?_del, if_pos rfl] at hk; cases hk
    · rw [AMap.get?_del, if_neg (fun x => e x.symm)] at hk; exact h k o hk
  unfold Inst.release
  refine h0.trans ?_
  generalize ({ I with tasks := I.tasks.del t.id, trace := .taskRemoved t.id :: I.trace } : Inst) = J
  generalize I.defn.fromLinks t = ls
  induction ls generalizing J with
  | nil => exact .rfl
  | cons l ls ih =>
    exact Keeps.trans (J := { J with links := J.links.del l.id, trace := .linkRemoved l.id :: J.trace })
      (.same' (Eq.refl _) (Eq.refl _) (Eq.refl _) (Eq.refl _)) (ih _)

theorem keeps_enterObj (I : Inst) (o : Nat) (t : TaskRef) : Keeps I (enterObj I o t).1 := by
  have h := (keeps_status I o .entered).trans (keeps_findLinks (I.defn.fromLinks t) _)
  show Keeps I (afterEnter _ o (enterCase I t))
  cases enterCase I t
  · exact h
  · exact h.trans (keeps_status _ _ _)
  · exact h.trans (keeps_status _ _ _)

theorem keeps_entered (I : Inst) (t : TaskRef) (r : EnterResult) : Keeps I (enteredInst I t r) := by
  cases r
  · exact .rfl
  · exact .rfl
  · exact keeps_findLinks _ _

/-- The task instance a frame refers to. -/
def objOf : Fr → Option Nat
  | .run o => some o
  | .test o _ => some o
  | .push o _ => some o
  | _ => none

/-- Everything refers to existing task instances. -/
structure ObjsOK (s : St) : Prop where
  tab : TabOK s.inst
  queue : ∀ o ∈ s.queue, o < s.inst.objs.length
  frames : ∀ g f o, f ∈ s.gs g → objOf f = some o → o < s.inst.objs.length

theorem ObjsOK.init (d : Def) (uri : String) : ObjsOK (init d uri) := by
  refine ⟨fun k o h => (by cases h), fun o h => (by cases h), fun g f o hf h => ?_⟩
  have hf : f ∈ (if g = 0 then [Fr.lock (Inst.startEntries d false)] else []) := hf
  split at hf
  · rw [List.mem_singleton.mp hf] at h; cases h
  · cases hf

/-- A step of one goroutine. -/
theorem ObjsOK.move {s s' : St} (ok : ObjsOK s) {g : Nat} {fs : List Fr} (hk : Keeps s.inst s'.inst) (hg : s'.gs = (s.goto g fs).gs)
    (hq : ∀ o ∈ s'.queue, o ∈ s.queue ∨ ∃ f ∈ s.gs g, objOf f = some o)
    (hf : ∀ f ∈ fs, ∀ o, objOf f = some o → (∃ f' ∈ s.gs g, objOf f' = some o) ∨ o ∈ s.queue ∨ o < s'.inst.objs.length) : ObjsOK s' := by
  have hl := hk.len
  refine ⟨hk.tab ok.tab, fun o h => ?_, fun h f o hf' ho => ?_⟩
  · rcases hq o h with h | ⟨f, h, ho⟩
    · have := ok.queue o h; omega
    · have := ok.frames g f o h ho; omega
  · rw [hg, goto_gs] at hf'
    split at hf'
    · rcases hf f hf' o ho with ⟨f', h1, h2⟩ | h1 | h1
      · have := ok.frames g f' o h1 h2; omega
      · have := ok.queue o h1; omega
      · exact h1
    · have := ok.frames h f o hf' ho; omega

theorem objOf_doneFrames {prio : Bool} {ev : LinkDef → ExprOut} {I : Inst} {gen : LinkId → Nat} {t : TaskRef} {rest : List Fr} {f : Fr} {o : Nat}
    (h : f ∈ doneFrames prio ev I gen t rest) (ho : objOf f = some o) : f ∈ rest := by
  unfold doneFrames at h
  split at h <;>
    (rcases List.mem_cons.mp h with e | h
     · rw [e] at ho; cases ho
     rcases List.mem_cons.mp h with e | h
     · rw [e] at ho; cases ho
     exact h)

theorem objOf_errorFrames {I : Inst} {gen : LinkId → Nat} {t : TaskRef} {rest : List Fr} {f : Fr} {o : Nat}
    (h : f ∈ errorFrames I gen t rest) (ho : objOf f = some o) : f ∈ rest := by
  unfold errorFrames at h
  split at h
  · rcases List.mem_cons.mp h with e | h
    · rw [e] at ho; cases ho
    exact h
  · rcases List.mem_cons.mp h with e | h
    · rw [e] at ho; cases ho
    rcases List.mem_cons.mp h with e | h
    · rw [e] at ho; cases ho
    rcases List.mem_cons.mp h with e | h
    · rw [e] at ho; cases ho
    exact h

theorem ObjsOK.exec {prio : Bool} {s s' : St} (ok : ObjsOK s) {g : Nat} {r : Res} (h : exec prio s g r = some s') : ObjsOK s' := by
  unfold Conc.exec at h
  split at h
  · rename_i o rest hg
    have hin : ∀ f ∈ rest, f ∈ s.gs g := fun f hf => by rw [hg]; exact List.mem_cons_of_mem _ hf
    split at h
    · cases h
    · rename_i ob _
      split at h
      · cases h
        exact ok.move (g := g) (fs := rest) .rfl rfl (fun o h => .inl h) (fun f hf o ho => .inl ⟨f, hin f hf, ho⟩)
      · cases h
        cases r with
        | done ev ret =>
          exact ok.move (g := g) (((keeps_force _ _).trans (keeps_findLinks _ _)).trans (keeps_status _ _ _)) rfl (fun o h => .inl h)
            (fun f hf o ho => .inl ⟨f, hin f (objOf_doneFrames hf ho), ho⟩)
        | error =>
          exact ok.move (g := g) ((keeps_status _ _ _).trans (keeps_findLinks _ _)) rfl (fun o h => .inl h)
            (fun f hf o ho => .inl ⟨f, hin f (objOf_errorFrames hf ho), ho⟩)
        | wait =>
          exact ok.move (g := g) (fs := rest) (keeps_status _ _ _) rfl (fun o h => .inl h) (fun f hf o ho => .inl ⟨f, hin f hf, ho⟩)
        | again =>
          refine ok.move (g := g) (fs := rest) .rfl rfl (fun p h => ?_) (fun f hf o ho => .inl ⟨f, hin f hf, ho⟩)
          rcases List.mem_append.mp h with h | h
          · exact .inl h
          · exact .inr ⟨.run o, by rw [hg]; exact List.mem_cons_self .., by rw [List.mem_singleton.mp h]; rfl⟩
  · cases h

theorem ObjsOK.pop {s s' : St} (ok : ObjsOK s) {g : Nat} (h : pop s g = some s') : ObjsOK s' := by
  unfold Conc.pop at h
  split at h
  · cases h
  · rename_i o q hq
    split at h
    · cases h
      refine ok.move (g := g) (fs := [.run o]) .rfl rfl (fun p h => .inl (by rw [hq]; exact List.mem_cons_of_mem _ h)) (fun f hf p ho => ?_)
      rw [List.mem_singleton.mp hf] at ho
      cases ho
      exact .inr (.inl (by rw [hq]; exact List.mem_cons_self ..))
    · cases h

theorem ObjsOK.next {s s' : St} (ok : ObjsOK s) {g : Nat} (h : next s g = some s') : ObjsOK s' := by
  unfold Conc.next at h
  split at h
  · cases h
  · cases h
  · rename_i rest hg
    cases h
    exact ok.move (g := g) (fs := rest) .rfl rfl (fun o h => .inl h)
      (fun f hf o ho => .inl ⟨f, by rw [hg]; exact List.mem_cons_of_mem _ hf, ho⟩)
  · rename_i gen r rs rest hg
    cases h
    refine ok.move (g := g) (fs := .rows gen rs :: rest) (keeps_ptr _ _ _) rfl (fun o h => .inl h) (fun f hf o ho => .inl ⟨f, ?_, ho⟩)
    rcases List.mem_cons.mp hf with e | hf
    · rw [e] at ho; cases ho
    · rw [hg]; exact List.mem_cons_of_mem _ hf
  · rename_i t n es rest hg
    cases h
    unfold finishStep
    split
    · refine ok.move (g := g) (fs := .release t :: rest) (keeps_flow _ _) rfl (fun o h => .inl h) (fun f hf o ho => .inl ⟨f, ?_, ho⟩)
      rcases List.mem_cons.mp hf with e | hf
      · rw [e] at ho; cases ho
      · rw [hg]; exact List.mem_cons_of_mem _ hf
    · refine ok.move (g := g) (fs := .lock es :: .release t :: rest) .rfl rfl (fun o h => .inl h) (fun f hf o ho => .inl ⟨f, ?_, ho⟩)
      rcases List.mem_cons.mp hf with e | hf
      · rw [e] at ho; cases ho
      rcases List.mem_cons.mp hf with e | hf
      · rw [e] at ho; cases ho
      · rw [hg]; exact List.mem_cons_of_mem _ hf
  · rename_i rest hg
    cases h
    unfold failStep
    split
    · exact ok.move (g := g) (fs := rest) (keeps_flow _ _) rfl (fun o h => .inl h)
        (fun f hf o ho => .inl ⟨f, by rw [hg]; exact List.mem_cons_of_mem _ hf, ho⟩)
    · split
      · refine ok.move (g := g) (fs := .lock _ :: rest) (keeps_clear _) rfl (fun o h => .inl h) (fun f hf o ho => .inl ⟨f, ?_, ho⟩)
        rcases List.mem_cons.mp hf with e | hf
        · rw [e] at ho; cases ho
        · rw [hg]; exact List.mem_cons_of_mem _ hf
      · exact ok.move (g := g) (fs := rest) (.same' rfl rfl rfl rfl) rfl (fun o h => .inl h)
          (fun f hf o ho => .inl ⟨f, by rw [hg]; exact List.mem_cons_of_mem _ hf, ho⟩)
  · rename_i es rest hg
    split at h
    · cases h
    · cases h
      refine ok.move (g := g) (fs := .enter es :: rest) .rfl rfl (fun o h => .inl h) (fun f hf o ho => .inl ⟨f, ?_, ho⟩)
      rcases List.mem_cons.mp hf with e | hf
      · rw [e] at ho; cases ho
      · rw [hg]; exact List.mem_cons_of_mem _ hf
  · rename_i rest hg
    cases h
    exact ok.move (g := g) (fs := rest) .rfl rfl (fun o h => .inl h)
      (fun f hf o ho => .inl ⟨f, by rw [hg]; exact List.mem_cons_of_mem _ hf, ho⟩)
  · rename_i x xs rest hg
    cases h
    unfold testStep
    split
    · refine ok.move (g := g) (fs := .enter xs :: rest) (keeps_create _ _) rfl (fun o h => .inl h) (fun f hf o ho => .inl ⟨f, ?_, ho⟩)
      rcases List.mem_cons.mp hf with e | hf
      · rw [e] at ho; cases ho
      · rw [hg]; exact List.mem_cons_of_mem _ hf
    · refine ok.move (g := g) (fs := .test _ xs :: rest) (keeps_create _ _) rfl (fun o h => .inl h) (fun f hf o ho => ?_)
      rcases List.mem_cons.mp hf with e | hf
      · rw [e] at ho; cases ho
        exact .inr (.inr (create_lt ok.tab x.task))
      · exact .inl ⟨f, by rw [hg]; exact List.mem_cons_of_mem _ hf, ho⟩
  · rename_i o es rest hg
    split at h
    · cases h
    · rename_i ob _
      cases h
      refine ok.move (g := g) (fs := enteredFrames s.inst s.gen o ob.task es rest (enterObj s.inst o ob.task).2)
        ((keeps_enterObj _ _ _).trans (keeps_entered _ _ _)) rfl (fun o h => .inl h) (fun f hf p ho => .inl ?_)
      cases hr : (enterObj s.inst o ob.task).2 <;> rw [hr] at hf
      · rcases List.mem_cons.mp hf with e | hf
        · rw [e] at ho; cases ho
        · exact ⟨f, by rw [hg]; exact List.mem_cons_of_mem _ hf, ho⟩
      · rcases List.mem_cons.mp hf with e | hf
        · rw [e] at ho; cases ho
          exact ⟨.test o es, by rw [hg]; exact List.mem_cons_self .., rfl⟩
        · exact ⟨f, by rw [hg]; exact List.mem_cons_of_mem _ hf, ho⟩
      · rcases List.mem_cons.mp hf with e | hf
        · rw [e] at ho; cases ho
        rcases List.mem_cons.mp hf with e | hf
        · rw [e] at ho; cases ho
        rcases List.mem_cons.mp hf with e | hf
        · rw [e] at ho; cases ho
        · exact ⟨f, by rw [hg]; exact List.mem_cons_of_mem _ hf, ho⟩
  · rename_i o es rest hg
    cases h
    refine ok.move (g := g) (fs := .enter es :: rest) .rfl rfl (fun p h => ?_) (fun f hf p ho => .inl ⟨f, ?_, ho⟩)
    · rcases List.mem_append.mp h with h | h
      · exact .inl h
      · exact .inr ⟨.push o es, by rw [hg]; exact List.mem_cons_self .., by rw [List.mem_singleton.mp h]; rfl⟩
    · rcases List.mem_cons.mp hf with e | hf
      · rw [e] at ho; cases ho
      · rw [hg]; exact List.mem_cons_of_mem _ hf
  · rename_i t rest hg
    cases h
    exact ok.move (g := g) (fs := rest) (keeps_release _ _) rfl (fun o h => .inl h)
      (fun f hf o ho => .inl ⟨f, by rw [hg]; exact List.mem_cons_of_mem _ hf, ho⟩)

theorem ObjsOK.reach {prio : Bool} {d : Def} {uri : String} {s : St} (h : Reach prio d uri s) : ObjsOK s := by
  induction h with
  | init => exact ObjsOK.init d uri
  | step _ hs ih =>
    rename_i l _
    cases l with
    | pop g => exact ih.pop hs
    | exec g r => exact ih.exec hs
    | next g => exact ih.next hs

end Flow.Conc
