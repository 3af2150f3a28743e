import Verif.Proofs.Base
import Verif.Proofs.EngOK
import Verif.Proofs.ConcObjs

/-
Concurrent mode: in every interleaving the events of an instance are in order (`TraceOK`).
-/

namespace Flow.Conc

open Flow Spec

/-- The task instance has become ready. -/
def Became (I : Inst) (o : Nat) : Prop := ∃ ob, I.objs[o]? = some ob ∧ .taskStatus o ob.task .ready ∈ I.trace

theorem Became.mono {I J : Inst} {o : Nat} (h : Became I o) (x : Ext I J) : Became J o := by
  obtain ⟨ob, h1, h2⟩ := h
  obtain ⟨ob', h3, h4⟩ := x.objs o ob h1
  exact ⟨ob', h3, by rw [h4]; exact x.mem h2⟩

/-- What a goroutine still does is in order. -/
def FrOK (I : Inst) : Fr → Prop
  | .run o => Became I o
  | .push o _ => Became I o
  | .rows _ rs => ∀ r ∈ rs, EvOK I.defn (.linkStatus r.1.id r.2) I.trace
  | _ => True

theorem FrOK.mono {I J : Inst} {f : Fr} (h : FrOK I f) (x : Ext I J) : FrOK J f := by
  cases f with
  | run o => exact Became.mono h x
  | push o es => exact Became.mono h x
  | rows gen rs =>
    intro r hr
    obtain ⟨evs, he⟩ := x.trace
    rw [he, x.defn]
    exact evOK_link_mono (h r hr)
  | _ => trivial

structure TrOK (d : Def) (s : St) : Prop where
  defn : s.inst.defn = d
  ok : InstOK s.inst
  queue : ∀ o ∈ s.queue, Became s.inst o
  frames : ∀ g f, f ∈ s.gs g → FrOK s.inst f

theorem TrOK.init (d : Def) (uri : String) : TrOK d (init d uri) := by
  refine ⟨rfl, ?_, fun o h => (by cases h), fun g f hf => ?_⟩
  · exact (Ext.setFlowStatus .active (by simp)).ok (Eng.instOK_new d uri 0 none)
  · have hf : f ∈ (if g = 0 then [Fr.lock (Inst.startEntries d false)] else []) := hf
    split at hf
    · rw [List.mem_singleton.mp hf]; trivial
    · cases hf

theorem TrOK.move {d : Def} {s s' : St} (ok : TrOK d s) {g : Nat} {fs : List Fr} (x : Ext s.inst s'.inst)
    (hg : s'.gs = (s.goto g fs).gs) (hq : ∀ o ∈ s'.queue, o ∈ s.queue ∨ Became s.inst o)
    (hf : ∀ f ∈ fs, f ∈ s.gs g ∨ FrOK s'.inst f) : TrOK d s' := by
  refine ⟨x.defn.trans ok.defn, x.ok ok.ok, fun o h => ?_, fun h f hf' => ?_⟩
  · rcases hq o h with h | h
    · exact (ok.queue o h).mono x
    · exact h.mono x
  · rw [hg, goto_gs] at hf'
    split at hf'
    · rcases hf f hf' with h1 | h1
      · exact (ok.frames g f h1).mono x
      · exact h1
    · exact (ok.frames h f hf').mono x

theorem ext_force (I : Inst) (b : Bool) : Ext I (setForce I b) :=
  Ext.of_quiet rfl rfl rfl (fun _ ob h => ⟨ob, h, rfl⟩) (Or.inl rfl) (fun h => by simp [setForce, h]) rfl rfl rfl rfl rfl
    (fun _ ob h => ⟨ob, h, rfl⟩)

theorem mem_doneSets {rows : List (LinkDef × LinkStatus × Nat)} {r : LinkDef × LinkStatus} (h : r ∈ doneSets rows) :
    ∃ x ∈ rows, r.1 = x.1 ∧ (r.2 = .false ∨ r.2 = .true ∧ x.2.1 = .true) := by
  rcases List.mem_append.1 h with h | h
  · obtain ⟨x, hx, hr⟩ := List.mem_flatMap.1 h
    unfold rowSets at hr
    refine ⟨x, hx, ?_⟩
    split at hr
    · rename_i hc
      rcases List.mem_cons.1 hr with e | hr
      · rw [e]; exact ⟨rfl, .inl rfl⟩
      · rw [List.mem_singleton.1 hr]; exact ⟨rfl, .inr ⟨rfl, hc.1⟩⟩
    · rw [List.mem_singleton.1 hr]; exact ⟨rfl, .inl rfl⟩
  · obtain ⟨x, hx, hr⟩ := List.mem_flatMap.1 h
    unfold otherSets at hr
    refine ⟨x, hx, ?_⟩
    split at hr
    · rename_i hc
      rw [List.mem_singleton.1 hr]; exact ⟨rfl, .inr ⟨rfl, hc.1⟩⟩
    · cases hr

theorem mem_plainSets {rows : List (LinkDef × LinkStatus × Nat)} {r : LinkDef × LinkStatus} (h : r ∈ plainSets rows) :
    ∃ x ∈ rows, r = (x.1, x.2.1) := by
  obtain ⟨x, hx, e⟩ := List.mem_map.1 h
  exact ⟨x, hx, e.symm⟩

theorem frOK_done {prio : Bool} {ev : LinkDef → ExprOut} {I J : Inst} {gen : LinkId → Nat} {t : TaskRef} {rest : List Fr} {f : Fr} {o : Nat}
    (hd : J.defn = I.defn) (hm : .taskStatus o t .done ∈ J.trace) (h : f ∈ doneFrames prio ev I gen t rest) : f ∈ rest ∨ FrOK J f := by
  have key : ∀ rows : List (LinkDef × LinkStatus × Nat),
      (∀ r ∈ rows, r.1 ∈ I.defn.toLinks t ∧ (r.2.1 = .true ∧ r.1.type ≠ .error ∨ r.2.1 = .false)) → FrOK J (.rows gen (doneSets rows)) := by
    intro rows hr r hrm
    obtain ⟨x, hx, he, hs⟩ := mem_doneSets hrm
    obtain ⟨h3, h4⟩ := hr x hx
    refine ⟨t, o, r.1, by rw [hd, he]; exact h3, rfl, ?_⟩
    rcases hs with h5 | ⟨h5, h6⟩
    · rw [h5]; exact Or.inr hm
    · rcases h4 with ⟨_, h7⟩ | h7
      · rw [h5, he]; simp only [h7, if_false]; exact hm
      · rw [h6] at h7; cases h7
  have hrows := doneRows_rows prio ev (I.defn.toLinks t)
  unfold doneFrames at h
  cases hx : doneRows prio ev (I.defn.toLinks t) with
  | error p =>
    rw [hx] at hrows h
    rcases List.mem_cons.mp h with e | h
    · rw [e]; exact .inr (key _ hrows)
    rcases List.mem_cons.mp h with e | h
    · rw [e]; exact .inr trivial
    exact .inl h
  | ok rows =>
    rw [hx] at hrows h
    rcases List.mem_cons.mp h with e | h
    · rw [e]; exact .inr (key _ hrows)
    rcases List.mem_cons.mp h with e | h
    · rw [e]; exact .inr trivial
    exact .inl h

theorem frOK_error {I J : Inst} {gen : LinkId → Nat} {t : TaskRef} {rest : List Fr} {f : Fr} {o : Nat}
    (hd : J.defn = I.defn) (hm : .taskStatus o t .failed ∈ J.trace) (h : f ∈ errorFrames I gen t rest) : f ∈ rest ∨ FrOK J f := by
  unfold errorFrames at h
  split at h
  · rcases List.mem_cons.mp h with e | h
    · rw [e]; exact .inr trivial
    exact .inl h
  · rename_i rows hx
    rcases List.mem_cons.mp h with e | h
    · rw [e]
      refine .inr fun r hrm => ?_
      unfold errorRows at hx
      split at hx
      · cases hx
        obtain ⟨y, hy, e⟩ := mem_plainSets hrm
        subst e
        obtain ⟨l, hl, hr⟩ := List.mem_map.1 hy
        refine ⟨t, o, l, by rw [hd]; exact hl, ?_, ?_⟩
        · rw [← hr]; split <;> rfl
        · by_cases hle : l.type = .error
          · simp only [hle, if_true] at hr
            rw [← hr]
            simp only [hle, if_true]
            exact hm
          · simp only [hle, if_false] at hr
            rw [← hr]
            exact Or.inl hm
      · cases hx
    rcases List.mem_cons.mp h with e | h
    · rw [e]; exact .inr trivial
    rcases List.mem_cons.mp h with e | h
    · rw [e]; exact .inr trivial
    exact .inl h

theorem TrOK.exec {d : Def} {prio : Bool} {s s' : St} (ok : TrOK d s) {g : Nat} {r : Res} (h : exec prio s g r = some s') : TrOK d s' := by
  unfold Conc.exec at h
  split at h
  · rename_i o rest hg
    have hin : ∀ f ∈ rest, f ∈ s.gs g := fun f hf => by rw [hg]; exact List.mem_cons_of_mem _ hf
    have hb : Became s.inst o := ok.frames g (.run o) (by rw [hg]; exact List.mem_cons_self ..)
    split at h
    · cases h
    · rename_i ob hob
      have hr : .taskStatus o ob.task .ready ∈ s.inst.trace := by
        obtain ⟨ob', h1, h2⟩ := hb
        rw [hob] at h1; cases h1; exact h2
      have hset : ∀ st : TaskStatus, (st = .waiting ∨ st = .done ∨ st = .failed) → Ext s.inst (s.inst.setTaskStatus o st) := fun st hst =>
        Ext.setTaskStatus' hst fun ob2 ho2 => by rw [hob] at ho2; cases ho2; exact hr
      split at h
      · cases h
        exact ok.move (g := g) (fs := rest) (.refl _) rfl (fun o h => .inl h) (fun f hf => .inl (hin f hf))
      · cases h
        cases r with
        | done ev ret =>
          have x1 : Ext s.inst ((setForce s.inst ret).findLinks (s.inst.defn.toLinks ob.task)) :=
            (ext_force _ _).trans (Ext.findLinks _)
          obtain ⟨ob', ho', ht⟩ := x1.objs o ob hob
          have x2 := x1.trans (Ext.setTaskStatus' (o := o) (Or.inr (Or.inl rfl)) fun ob2 ho2 => by
            rw [ho'] at ho2; cases ho2; rw [ht]; exact x1.mem hr)
          have hm := (getElem?_setTaskStatus (st := .done) ho').1
          rw [ht] at hm
          refine ok.move (g := g) x2 rfl (fun o h => .inl h) (fun f hf => ?_)
          rcases frOK_done (J := (((setForce s.inst ret).findLinks (s.inst.defn.toLinks ob.task)).setTaskStatus o .done))
            x2.defn (by rw [hm]; exact List.mem_cons_self ..) hf with h1 | h1
          · exact .inl (hin f h1)
          · exact .inr h1
        | error =>
          have x1 := hset .failed (.inr (.inr rfl))
          have x2 : Ext (s.inst.setTaskStatus o .failed) ((s.inst.setTaskStatus o .failed).findLinks (s.inst.defn.toLinks ob.task)) :=
            Ext.findLinks _
          have hm := (getElem?_setTaskStatus (st := .failed) hob).1
          refine ok.move (g := g) (x1.trans x2) rfl (fun o h => .inl h) (fun f hf => ?_)
          rcases frOK_error (x1.trans x2).defn (x2.mem (by rw [hm]; exact List.mem_cons_self ..)) hf with h1 | h1
          · exact .inl (hin f h1)
          · exact .inr h1
        | wait =>
          exact ok.move (g := g) (fs := rest) (hset .waiting (.inl rfl)) rfl (fun o h => .inl h) (fun f hf => .inl (hin f hf))
        | again =>
          refine ok.move (g := g) (fs := rest) (.refl _) rfl (fun p h => ?_) (fun f hf => .inl (hin f hf))
          rcases List.mem_append.mp h with h | h
          · exact .inl h
          · exact .inr (by rw [List.mem_singleton.mp h]; exact hb)
  · cases h

theorem TrOK.pop {d : Def} {s s' : St} (ok : TrOK d s) {g : Nat} (h : pop s g = some s') : TrOK d s' := by
  unfold Conc.pop at h
  split at h
  · cases h
  · rename_i o q hq
    split at h
    · cases h
      refine ok.move (g := g) (fs := [.run o]) (.refl _) rfl (fun p h => .inl (by rw [hq]; exact List.mem_cons_of_mem _ h)) (fun f hf => ?_)
      rw [List.mem_singleton.mp hf]
      exact .inr (ok.queue o (by rw [hq]; exact List.mem_cons_self ..))
    · cases h

/-- `Enter`: the events are in order, and what follows is. -/
theorem enter_ext {I : Inst} {o : Nat} {ob : Obj} (ho : I.objs[o]? = some ob) :
    Ext I (enteredInst (enterObj I o ob.task).1 ob.task (enterObj I o ob.task).2) ∧
    ∀ gen es rest f, f ∈ enteredFrames I gen o ob.task es rest (enterObj I o ob.task).2 → f ∈ rest ∨
      FrOK (enteredInst (enterObj I o ob.task).1 ob.task (enterObj I o ob.task).2) f := by
  unfold enterObj
  dsimp only
  have h2 : Ext I (I.setTaskStatus o .entered) := Ext.enter
  obtain ⟨he2, ho2⟩ := getElem?_setTaskStatus (st := .entered) ho
  have h3 : Ext (I.setTaskStatus o .entered) ((I.setTaskStatus o .entered).findLinks (I.defn.fromLinks ob.task)) :=
    Ext.findLinks _
  obtain ⟨ob3, ho3, ht3⟩ := h3.objs o _ ho2
  have hl : ∀ l, ((I.setTaskStatus o .entered).findLinks (I.defn.fromLinks ob.task)).linkSt l = I.linkSt l := fun l => by
    rw [findLinks_linkSt, setTaskStatus_linkSt]
  have hd : ((I.setTaskStatus o .entered).findLinks (I.defn.fromLinks ob.task)).defn = I.defn := by rw [h3.defn, h2.defn]
  have he : .taskStatus o ob.task .entered ∈ ((I.setTaskStatus o .entered).findLinks (I.defn.fromLinks ob.task)).trace :=
    h3.mem (by rw [he2]; exact List.mem_cons_self)
  generalize (I.setTaskStatus o .entered).findLinks (I.defn.fromLinks ob.task) = I2 at h3 ho3 hd he hl ⊢
  have hI2 : Ext I I2 := h2.trans h3
  simp only at ht3
  cases hdec : enterCase I ob.task with
  | notReady =>
    refine ⟨hI2, fun gen es rest f hf => ?_⟩
    rcases List.mem_cons.mp hf with e | hf
    · rw [e]; exact .inr trivial
    · exact .inl hf
  | eval =>
    have hdec' := (enterDecision_eval _).1 hdec
    have h4 : Ext I2 (I2.setTaskStatus o .ready) := by
      refine Ext.setTaskStatus fun ob4 ho4 ok => ?_
      rw [ho3] at ho4; cases ho4
      rw [ht3, hd]
      refine ⟨⟨fun l hl' => ?_, ?_⟩, he⟩
      · rw [← ok.links, hl]
        have := hdec'.1 (I.linkSt l.id) (List.mem_map.2 ⟨l, hl', rfl⟩)
        intro hc; rw [hc] at this; exact this
      · rcases hdec'.2 with h | h
        · left; simpa using h
        · right
          obtain ⟨l, hl', hs⟩ := List.mem_map.1 h
          exact ⟨l, hl', by rw [← ok.links, hl]; exact hs⟩
    refine ⟨hI2.trans h4, fun gen es rest f hf => ?_⟩
    rcases List.mem_cons.mp hf with e | hf
    · rw [e]
      obtain ⟨g1, g2⟩ := getElem?_setTaskStatus (st := .ready) ho3
      exact .inr ⟨_, g2, by show _ ∈ (I2.setTaskStatus o .ready).trace; rw [g1]; exact List.mem_cons_self ..⟩
    · exact .inl hf
  | skip =>
    have hdec' := (enterDecision_skip _).1 hdec
    have hc : CanSkip I2 o ob.task := by
      refine ⟨⟨?_, fun l hl' => ⟨fun hc => ?_, fun hc => ?_⟩⟩, he⟩
      · rw [hd]; intro h; exact hdec'.1 (by simp [h])
      · have := hdec'.2.1 (I.linkSt l.id) (List.mem_map.2 ⟨l, by rw [hd] at hl'; exact hl', rfl⟩)
        rw [hl] at hc; rw [hc] at this; exact this
      · exact hdec'.2.2 (List.mem_map.2 ⟨l, by rw [hd] at hl'; exact hl', by rw [← hl]; exact hc⟩)
    have h4 : Ext I2 (I2.setTaskStatus o .skipped) := by
      refine Ext.setTaskStatus fun ob4 ho4 ok => ?_
      rw [ho3] at ho4; cases ho4
      rw [ht3]
      exact hc.evOK ok
    have hm : .taskStatus o ob.task .skipped ∈ (I2.setTaskStatus o .skipped).trace := by
      rw [(getElem?_setTaskStatus ho3).1, ht3]; exact List.mem_cons_self ..
    have h5 : Ext (I2.setTaskStatus o .skipped) ((I2.setTaskStatus o .skipped).findLinks ((I2.setTaskStatus o .skipped).defn.toLinks ob.task)) :=
      Ext.findLinks _
    refine ⟨(hI2.trans h4).trans h5, fun gen es rest f hf => ?_⟩
    rcases List.mem_cons.mp hf with e | hf
    · rw [e]
      refine .inr fun r hr => ?_
      obtain ⟨y, hy, e'⟩ := mem_plainSets hr
      subst e'
      obtain ⟨l, hl', hr'⟩ := List.mem_map.1 hy
      refine ⟨ob.task, o, l, ?_, by rw [← hr'], ?_⟩
      · have hdd := (h5.defn.trans h4.defn).trans hd
        exact (congrArg (fun D => l ∈ Def.toLinks D ob.task) hdd).mpr hl'
      · rw [← hr']; exact h5.mem hm
    rcases List.mem_cons.mp hf with e | hf
    · rw [e]; exact .inr trivial
    rcases List.mem_cons.mp hf with e | hf
    · rw [e]; exact .inr trivial
    · exact .inl hf

theorem TrOK.next {d : Def} {s s' : St} (ok : TrOK d s) {g : Nat} (h : next s g = some s') : TrOK d s' := by
  unfold Conc.next at h
  split at h
  · cases h
  · cases h
  · rename_i rest hg
    cases h
    exact ok.move (g := g) (fs := rest) (.refl _) rfl (fun o h => .inl h)
      (fun f hf => .inl (by rw [hg]; exact List.mem_cons_of_mem _ hf))
  · rename_i gen r rs rest hg
    cases h
    have hr := ok.frames g (.rows gen (r :: rs)) (by rw [hg]; exact List.mem_cons_self ..)
    have x : Ext s.inst (setPtr s gen r) := by
      unfold setPtr
      split
      · exact Ext.setLink fun _ => hr r (List.mem_cons_self ..)
      · exact .refl _
    refine ok.move (g := g) (fs := .rows gen rs :: rest) x rfl (fun o h => .inl h) (fun f hf => ?_)
    rcases List.mem_cons.mp hf with e | hf
    · rw [e]
      exact .inr (FrOK.mono (f := .rows gen rs) (fun r' hr' => hr r' (List.mem_cons_of_mem _ hr')) x)
    · exact .inl (by rw [hg]; exact List.mem_cons_of_mem _ hf)
  · rename_i t n es rest hg
    cases h
    unfold finishStep
    split
    · refine ok.move (g := g) (fs := .release t :: rest) (Ext.setFlowStatus _ (by simp)) rfl (fun o h => .inl h) (fun f hf => ?_)
      rcases List.mem_cons.mp hf with e | hf
      · rw [e]; exact .inr trivial
      · exact .inl (by rw [hg]; exact List.mem_cons_of_mem _ hf)
    · refine ok.move (g := g) (fs := .lock es :: .release t :: rest) (.refl _) rfl (fun o h => .inl h) (fun f hf => ?_)
      rcases List.mem_cons.mp hf with e | hf
      · rw [e]; exact .inr trivial
      rcases List.mem_cons.mp hf with e | hf
      · rw [e]; exact .inr trivial
      · exact .inl (by rw [hg]; exact List.mem_cons_of_mem _ hf)
  · rename_i rest hg
    cases h
    unfold failStep
    split
    · exact ok.move (g := g) (fs := rest) (Ext.setFlowStatus _ (by simp)) rfl (fun o h => .inl h)
        (fun f hf => .inl (by rw [hg]; exact List.mem_cons_of_mem _ hf))
    · split
      · refine ok.move (g := g) (fs := .lock _ :: rest) (Ext.setHandling.trans Ext.clear) rfl (fun o h => .inl h) (fun f hf => ?_)
        rcases List.mem_cons.mp hf with e | hf
        · rw [e]; exact .inr trivial
        · exact .inl (by rw [hg]; exact List.mem_cons_of_mem _ hf)
      · exact ok.move (g := g) (fs := rest) (Ext.setHandling.trans (Ext.setFlowStatus _ (by simp))) rfl (fun o h => .inl h)
          (fun f hf => .inl (by rw [hg]; exact List.mem_cons_of_mem _ hf))
  · rename_i es rest hg
    split at h
    · cases h
    · cases h
      refine ok.move (g := g) (fs := .enter es :: rest) (.refl _) rfl (fun o h => .inl h) (fun f hf => ?_)
      rcases List.mem_cons.mp hf with e | hf
      · rw [e]; exact .inr trivial
      · exact .inl (by rw [hg]; exact List.mem_cons_of_mem _ hf)
  · rename_i rest hg
    cases h
    exact ok.move (g := g) (fs := rest) (.refl _) rfl (fun o h => .inl h)
      (fun f hf => .inl (by rw [hg]; exact List.mem_cons_of_mem _ hf))
  · rename_i x xs rest hg
    cases h
    unfold testStep
    split
    · refine ok.move (g := g) (fs := .enter xs :: rest) (Ext.findOrCreateTask _) rfl (fun o h => .inl h) (fun f hf => ?_)
      rcases List.mem_cons.mp hf with e | hf
      · rw [e]; exact .inr trivial
      · exact .inl (by rw [hg]; exact List.mem_cons_of_mem _ hf)
    · refine ok.move (g := g) (fs := .test _ xs :: rest) (Ext.findOrCreateTask _) rfl (fun o h => .inl h) (fun f hf => ?_)
      rcases List.mem_cons.mp hf with e | hf
      · rw [e]; exact .inr trivial
      · exact .inl (by rw [hg]; exact List.mem_cons_of_mem _ hf)
  · rename_i o es rest hg
    split at h
    · cases h
    · rename_i ob hob
      cases h
      refine ok.move (g := g) (fs := enteredFrames s.inst s.gen o ob.task es rest (enterObj s.inst o ob.task).2)
        (enter_ext hob).1 rfl (fun o h => .inl h) (fun f hf => ?_)
      rcases (enter_ext hob).2 s.gen es rest f hf with h1 | h1
      · exact .inl (by rw [hg]; exact List.mem_cons_of_mem _ h1)
      · exact .inr h1
  · rename_i o es rest hg
    cases h
    have hb : Became s.inst o := ok.frames g (.push o es) (by rw [hg]; exact List.mem_cons_self ..)
    refine ok.move (g := g) (fs := .enter es :: rest) (.refl _) rfl (fun p h => ?_) (fun f hf => ?_)
    · rcases List.mem_append.mp h with h | h
      · exact .inl h
      · exact .inr (by rw [List.mem_singleton.mp h]; exact hb)
    · rcases List.mem_cons.mp hf with e | hf
      · rw [e]; exact .inr trivial
      · exact .inl (by rw [hg]; exact List.mem_cons_of_mem _ hf)
  · rename_i t rest hg
    cases h
    exact ok.move (g := g) (fs := rest) (Ext.release _) rfl (fun o h => .inl h)
      (fun f hf => .inl (by rw [hg]; exact List.mem_cons_of_mem _ hf))

theorem TrOK.reach {prio : Bool} {d : Def} {uri : String} {s : St} (h : Reach prio d uri s) : TrOK d s := by
  induction h with
  | init => exact TrOK.init d uri
  | step _ hs ih =>
    rename_i l _
    cases l with
    | pop g => exact ih.pop hs
    | exec g r => exact ih.exec hs
    | next g => exact ih.next hs

end Flow.Conc
