import Verif.Proofs.ConcBegin

/-
In concurrent mode: errors are not lost.
-/

namespace Flow.Conc

open Spec

variable {d : Def} {s s' : St}

theorem entered_mem {I : Inst} {o : Nat} {ob : Obj} (ho : I.objs[o]? = some ob) :
    .taskStatus o ob.task .entered ∈ (enteredInst (enterObj I o ob.task).1 ob.task (enterObj I o ob.task).2).trace := by
  have h1 : .taskStatus o ob.task .entered ∈ (I.setTaskStatus o .entered).trace := by
    rw [(getElem?_setTaskStatus (st := .entered) ho).1]; exact List.mem_cons_self ..
  refine (keeps_entered _ _ _).trace _ ?_
  have h2 := (keeps_findLinks (I.defn.fromLinks ob.task) _).trace _ h1
  show _ ∈ (afterEnter _ o (enterCase I ob.task)).trace
  generalize enterCase I ob.task = c
  cases c with
  | notReady => exact h2
  | eval => exact (keeps_status _ _ _).trace _ h2
  | skip => exact (keeps_status _ _ _).trace _ h2

/-- A failure is handled, or the step is another one. -/
theorem step_case {prio : Bool} {l : Label} (ht : TrOK d s) (h : step prio s l = some s') :
    (∃ g rest, s.gs g = .fail :: rest ∧ s' = failStep s g rest) ∨
    ∃ g, Move d s g s' ∧ (∀ rest, s.gs g ≠ .fail :: rest) ∧
      ∀ o es rest ob, s.gs g = .test o es :: rest → s.inst.objs[o]? = some ob → .taskStatus o ob.task .entered ∈ s'.inst.trace := by
  cases l with
  | pop g =>
    have hg : s.gs g = [] := by
      have h : Conc.pop s g = some s' := h
      unfold Conc.pop at h
      split at h
      · cases h
      · split at h
        · rename_i hc; simpa using hc.2.2.1
        · cases h
    have h : Conc.pop s g = some s' := h
    unfold Conc.pop at h
    split at h
    · cases h
    · rename_i o q hq
      split at h
      · cases h
        refine .inr ⟨g, .pop o q hq hg, fun rest e => ?_, fun o es rest ob e => ?_⟩
        · rw [hg] at e; cases e
        · rw [hg] at e; cases e
      · cases h
  | exec g r =>
    have hg : ∃ o rest, s.gs g = .run o :: rest := by
      have h : Conc.exec prio s g r = some s' := h
      unfold Conc.exec at h
      split at h
      · rename_i o rest hg; exact ⟨o, rest, hg⟩
      · cases h
    obtain ⟨o, rest, hg⟩ := hg
    refine .inr ⟨g, exec_move ht h, fun rest e => ?_, fun o es rest ob e => ?_⟩
    · rw [hg] at e; cases e
    · rw [hg] at e; cases e
  | next g =>
    have h : Conc.next s g = some s' := h
    by_cases hf : ∃ rest, s.gs g = .fail :: rest
    · obtain ⟨rest, hf⟩ := hf
      left
      refine ⟨g, rest, hf, ?_⟩
      unfold Conc.next at h
      rw [hf] at h
      cases h; rfl
    · refine .inr ⟨g, next_move ht h (fun rest e => absurd ⟨rest, e⟩ hf), fun rest e => hf ⟨rest, e⟩, fun o es rest ob e ho => ?_⟩
      unfold Conc.next at h
      rw [e] at h
      simp only [ho] at h
      cases h
      exact entered_mem ho

/-- Frames are only taken from the top. -/
theorem Move.survive {g : Nat} (m : Move d s g s') {h : Nat} {f : Fr} (hf : f ∈ s.gs h) : f ∈ s'.gs h ∨ ∃ rest, h = g ∧ s.gs g = f :: rest := by
  by_cases e : h = g
  · subst e
    obtain ⟨new, rest, h1, h2, _⟩ := m.frames
    rcases h2 with ⟨h2, _⟩ | ⟨f', h2⟩
    · rw [h2] at hf; cases hf
    · rw [h2] at hf
      rcases List.mem_cons.1 hf with e | hf
      · subst e; exact .inr ⟨rest, rfl, h2⟩
      · left; rw [h1]; exact List.mem_append_right _ hf
  · left; rw [m.others e]; exact hf

theorem failStep_ext (g : Nat) (rest : List Fr) : Ext s.inst (failStep s g rest).inst := by
  unfold failStep
  split
  · exact Ext.setFlowStatus _ (by simp)
  · split
    · exact Ext.setHandling.trans Ext.clear
    · exact Ext.setHandling.trans (Ext.setFlowStatus _ (by simp))

theorem failStep_survive {g : Nat} {rest : List Fr} (hg : s.gs g = .fail :: rest) {h : Nat} {f : Fr} (hf : f ∈ s.gs h) :
    f ∈ (failStep s g rest).gs h ∨ f = .fail := by
  by_cases e : h = g
  · subst e
    rw [hg] at hf
    rcases List.mem_cons.1 hf with e | hf
    · exact .inr e
    · left
      unfold failStep
      split
      · show f ∈ (if h = h then rest else s.gs h); rw [if_pos rfl]; exact hf
      · split
        · show f ∈ (if h = h then _ :: rest else s.gs h); rw [if_pos rfl]; exact List.mem_cons_of_mem _ hf
        · show f ∈ (if h = h then rest else s.gs h); rw [if_pos rfl]; exact hf
  · left
    unfold failStep
    split
    · show f ∈ (if h = g then rest else s.gs h); rw [if_neg e]; exact hf
    · split
      · show f ∈ (if h = g then _ :: rest else s.gs h); rw [if_neg e]; exact hf
      · show f ∈ (if h = g then rest else s.gs h); rw [if_neg e]; exact hf

theorem step_ext {prio : Bool} {l : Label} (ht : TrOK d s) (h : step prio s l = some s') : Ext s.inst s'.inst := by
  rcases step_case ht h with ⟨g, rest, _, e⟩ | ⟨g, m, _⟩
  · rw [e]; exact failStep_ext g rest
  · exact m.ext

theorem handling_findLinks (ls : List LinkDef) : ∀ I : Inst, (I.findLinks ls).handling = I.handling := by
  induction ls with
  | nil => exact fun I => rfl
  | cons l ls ih =>
    intro I
    have : (I.findLink l.id).handling = I.handling := by
      unfold Inst.findLink
      split <;> rfl
    exact (ih _).trans this

theorem handling_set (I : Inst) (o : Nat) (st : TaskStatus) : (I.setTaskStatus o st).handling = I.handling := by
  unfold Inst.setTaskStatus
  split <;> rfl

theorem handling_create (I : Inst) (t : TaskRef) : (I.findOrCreateTask t).1.handling = I.handling := by
  unfold Inst.findOrCreateTask
  split <;> rfl

theorem handling_release (I : Inst) (t : TaskRef) : (I.release t).handling = I.handling := by
  unfold Inst.release
  generalize hJ : ({ I with tasks := I.tasks.del t.id, trace := .taskRemoved t.id :: I.trace } : Inst) = J
  have h0 : J.handling = I.handling := by subst hJ; rfl
  rw [← h0]
  clear hJ h0
  generalize I.defn.fromLinks t = ls
  induction ls generalizing J with
  | nil => rfl
  | cons l ls ih => exact ih { J with links := J.links.del l.id, trace := .linkRemoved l.id :: J.trace }

theorem handling_enter (I : Inst) (o : Nat) (t : TaskRef) :
    (enteredInst (enterObj I o t).1 t (enterObj I o t).2).handling = I.handling := by
  have h1 : (enterObj I o t).1.handling = I.handling := by
    have h0 : ((I.setTaskStatus o .entered).findLinks (I.defn.fromLinks t)).handling = I.handling :=
      (handling_findLinks _ _).trans (handling_set _ _ _)
    unfold enterObj afterEnter
    dsimp only
    split
    · exact h0
    · exact (handling_set _ _ _).trans h0
    · exact (handling_set _ _ _).trans h0
  unfold enteredInst
  split
  · exact (handling_findLinks _ _).trans h1
  · exact h1

/-- Only a failure starts the error handler. -/
theorem step_handling {prio : Bool} {l : Label} (h : step prio s l = some s') (hn : s.inst.handling = false) (hh : s'.inst.handling = true) :
    ∃ g rest, s.gs g = .fail :: rest ∧ s' = failStep s g rest := by
  have no : ∀ {b : Bool}, b = s.inst.handling → b = true → False := fun h1 h2 => by rw [h1, hn] at h2; cases h2
  cases l with
  | pop g =>
    unfold step pop at h
    dsimp only at h
    split at h
    · cases h
    · split at h
      · cases h; exact (no rfl hh).elim
      · cases h
  | exec g r =>
    unfold step exec at h
    dsimp only at h
    split at h
    · split at h
      · cases h
      · split at h
        · cases h; exact (no rfl hh).elim
        · cases h
          cases r with
          | done ev ret => exact (no (b := (((setForce s.inst ret).findLinks _).setTaskStatus _ .done).handling) ((handling_set _ _ _).trans ((handling_findLinks _ _).trans rfl)) hh).elim
          | error => exact (no ((handling_findLinks _ _).trans (handling_set _ _ _)) hh).elim
          | wait => exact (no (handling_set _ _ _) hh).elim
          | again => exact (no rfl hh).elim
    · cases h
  | next g =>
    unfold step next at h
    dsimp only at h
    split at h
    · cases h
    · cases h
    · cases h; exact (no rfl hh).elim
    · cases h
      have : (setPtr s ‹_› ‹_›).handling = s.inst.handling := by
        unfold setPtr
        split <;> rfl
      exact (no this hh).elim
    · cases h
      unfold finishStep at hh
      split at hh
      · exact (no rfl hh).elim
      · exact (no rfl hh).elim
    · rename_i rest hg
      cases h
      exact ⟨g, rest, hg, rfl⟩
    · split at h
      · cases h
      · cases h; exact (no rfl hh).elim
    · cases h; exact (no rfl hh).elim
    · cases h; exact (no (handling_create _ _) hh).elim
    · split at h
      · cases h
      · cases h; exact (no (handling_enter _ _ _) hh).elim
    · cases h; exact (no rfl hh).elim
    · cases h; exact (no (handling_release _ _) hh).elim

/-! ### A failure is handled -/

/-- A failure is still to be handled, or it has been: the flow failed if the error handler was running (`b`) or there is none. -/
def Owed (b : Bool) (s : St) : Prop :=
  (∃ g, .fail ∈ s.gs g) ∨ (s.inst.handling = true ∧ (b = true ∨ s.inst.defn.eh = none → .flowStatus .failed ∈ s.inst.trace))

theorem Owed.step {prio : Bool} {l : Label} {b : Bool} (ht : TrOK d s) (h : step prio s l = some s') (hb : b = true → s.inst.handling = true)
    (ok : Owed b s) : Owed b s' := by
  have x := step_ext ht h
  rcases ok with ⟨h', hf⟩ | ⟨h1, h2⟩
  · rcases step_case ht h with ⟨g, rest, hg, e⟩ | ⟨g, m, hn, _⟩
    · subst e
      right
      by_cases hh : s.inst.handling = true
      · have e : failStep s g rest = { s with inst := s.inst.setFlowStatus .failed }.goto g rest := by
          unfold failStep; rw [if_pos hh]
        rw [e]
        exact ⟨hh, fun _ => List.mem_cons_self ..⟩
      · by_cases he : s.inst.defn.eh.isSome
        · have e : failStep s g rest = { s with inst := { s.inst with handling := true }.clearTasks }.goto g (.lock (Inst.startEntries s.inst.defn true) :: rest) := by
            unfold failStep; rw [if_neg hh, if_pos he]
          rw [e]
          refine ⟨rfl, fun hc => ?_⟩
          rcases hc with hc | hc
          · exact absurd (hb hc) hh
          · have hc : s.inst.defn.eh = none := hc
            rw [hc] at he; cases he
        · have e : failStep s g rest = { s with inst := { s.inst with handling := true }.setFlowStatus .failed }.goto g rest := by
            unfold failStep; rw [if_neg hh, if_neg he]
          rw [e]
          exact ⟨rfl, fun _ => List.mem_cons_self ..⟩
    · rcases m.survive hf with h1 | ⟨rest, _, h1⟩
      · exact .inl ⟨h', h1⟩
      · exact absurd h1 (hn rest)
  · exact .inr ⟨x.handling h1, fun hc => x.mem (h2 (by rw [x.defn] at hc; exact hc))⟩

/-! ### The tasks of the error handler -/

/-- All instances that were scheduled became ready. -/
def SchedOK (s : St) : Prop := ∀ o, s.scheduled o = true → Became s.inst o

theorem SchedOK.reach {prio : Bool} {uri : String} (h : Reach prio d uri s) : SchedOK s := by
  induction h with
  | init => intro o ho; cases ho
  | @step s s' l hr hs ih =>
    have ht := TrOK.reach hr
    have x := step_ext ht hs
    rcases step_case ht hs with ⟨g, rest, _, e⟩ | ⟨g, m, _⟩
    · have : s'.scheduled = s.scheduled := by
        subst e
        unfold failStep
        split
        · rfl
        · split <;> rfl
      intro o ho
      rw [this] at ho
      exact (ih o ho).mono x
    · by_cases hp : ∃ o es rest, s.gs g = .push o es :: rest
      · obtain ⟨p, es, rest, hg⟩ := hp
        intro o ho
        have hb : Became s.inst p := ht.frames g (.push p es) (by rw [hg]; exact List.mem_cons_self ..)
        cases m with
        | push q es' rest' hg' =>
          rw [hg] at hg'; cases hg'
          have ho : (if o = p then true else s.scheduled o) = true := ho
          split at ho
          · rename_i e; rw [e]; exact hb
          · exact ih o ho
        | _ => simp_all
      · intro o ho
        refine Became.mono (ih o ?_) x
        cases m with
        | push q es' rest' hg' => exact absurd ⟨q, es', rest', hg'⟩ hp
        | _ => exact ho

/-- A task that is not one of the error handler is one of the main flow. -/
def InMain (d : Def) (t : TaskRef) : Prop := t.eh = false → ∃ x ∈ d.main.tasks, x.id = t.id

theorem inMain_start (d : Def) (eh : Bool) : Main (InMain d) (Inst.startEntries d eh) := by
  intro x hx he
  obtain ⟨t, ht, e⟩ := List.mem_map.1 hx
  subst e
  cases eh with
  | true => cases he
  | false => exact ⟨t, (List.mem_filter.1 ht).1, rfl⟩

theorem InMain.along (wf : ∀ l ∈ d.main.links, ∃ t ∈ d.main.tasks, t.id = l.dst) : Along d (InMain d) := by
  intro t l _ hl he
  have he : t.eh = false := he
  unfold Def.toLinks at hl
  rw [he] at hl
  exact wf l ((List.mem_filter.1 hl).1)

theorem InMain.reach {prio : Bool} {uri : String} (wf : ∀ l ∈ d.main.links, ∃ t ∈ d.main.tasks, t.id = l.dst) (h : Reach prio d uri s) :
    RefsOK (InMain d) s := by
  induction h with
  | init => exact RefsOK.init d uri (inMain_start d false)
  | @step s s' l hr hs ih =>
    have ht := TrOK.reach hr
    rcases step_case ht hs with ⟨g, rest, hg, e⟩ | ⟨g, m, _⟩
    · have h0 : ∀ f ∈ rest, FrMain (InMain d) f := fun f hf => ih.frames g f (by rw [hg]; exact List.mem_cons_of_mem _ hf)
      subst e
      unfold failStep
      split
      · refine ⟨ih.objs, fun h f hf => ?_, fun o t st hm => ?_⟩
        · rcases mem_goto hf with ⟨_, hf⟩ | ⟨_, hf⟩
          · exact h0 f hf
          · exact ih.frames h f hf
        · rcases List.mem_cons.1 hm with e | hm
          · cases e
          · exact ih.events o t st hm
      · split
        · refine ⟨ih.objs, fun h f hf => ?_, fun o t st hm => ?_⟩
          · rcases mem_goto hf with ⟨_, hf⟩ | ⟨_, hf⟩
            · rcases List.mem_cons.1 hf with e | hf
              · subst e; rw [ht.defn]; exact inMain_start d true
              · exact h0 f hf
            · exact ih.frames h f hf
          · rcases List.mem_cons.1 hm with e | hm
            · cases e
            · exact ih.events o t st hm
        · refine ⟨ih.objs, fun h f hf => ?_, fun o t st hm => ?_⟩
          · rcases mem_goto hf with ⟨_, hf⟩ | ⟨_, hf⟩
            · exact h0 f hf
            · exact ih.frames h f hf
          · rcases List.mem_cons.1 hm with e | hm
            · cases e
            · exact ih.events o t st hm
    · exact ih.step (InMain.along wf) m

/-- A goroutine is going to enter `x`. -/
def Carries (I : Inst) (x : TaskEntry) : Fr → Prop
  | .lock es => x ∈ es
  | .enter es => x ∈ es
  | .push _ es => x ∈ es
  | .test o es => x ∈ es ∨ ∃ ob, I.objs[o]? = some ob ∧ ob.task = x.task
  | _ => False

theorem Carries.mono {I J : Inst} {x : TaskEntry} {f : Fr} (h : Carries I x f) (e : Ext I J) : Carries J x f := by
  cases f with
  | test o es =>
    rcases h with h | ⟨ob, h1, h2⟩
    · exact .inl h
    · obtain ⟨ob', h3, h4⟩ := e.objs o ob h1
      exact .inr ⟨ob', h3, h4.trans h2⟩
  | _ => exact h

/-- `x` was entered, or a goroutine is going to enter it. -/
def Serve (s : St) (x : TaskEntry) : Prop :=
  (∃ o, .taskStatus o x.task .entered ∈ s.inst.trace) ∨ ∃ g f, f ∈ s.gs g ∧ Carries s.inst x f

/-- There is no other task with this id. -/
def Alone (d : Def) (x : TaskEntry) : Prop := ∀ t, InMain d t → t.id = x.task.id → t = x.task

theorem ready_entered {D : Def} {tr : List Flow.Ev} (h : TraceOK D tr) {o : Nat} {t : TaskRef} (hm : .taskStatus o t .ready ∈ tr) :
    .taskStatus o t .entered ∈ tr := by
  obtain ⟨post, pre, hp⟩ := List.append_of_mem hm
  have := (h.at hp).2
  rw [hp]
  exact List.mem_append_right _ (List.mem_cons_of_mem _ this)

theorem found {I : Inst} (ok : InstOK I) (x : TaskEntry) : ∃ ob, (I.findOrCreateTask x.task).1.objs[(I.findOrCreateTask x.task).2]? = some ob ∧ ob.task.id = x.task.id :=
  ((Ext.findOrCreateTask x.task).ok ok).tasks _ _ (create_get I x.task)

theorem Serve.step {prio : Bool} {l : Label} {x : TaskEntry} (ht : TrOK d s) (hc : SchedOK s) (h : step prio s l = some s') (hr : RefsOK (InMain d) s')
    (hx : Alone d x) (ok : Serve s x) : Serve s' x := by
  have ex := step_ext ht h
  rcases ok with ⟨o, hm⟩ | ⟨h', f, hf, hcr⟩
  · exact .inl ⟨o, ex.mem hm⟩
  · rcases step_case ht h with ⟨g, rest, hg, e⟩ | ⟨g, m, hn, htest⟩
    · subst e
      rcases failStep_survive hg hf with h1 | h1
      · exact .inr ⟨h', f, h1, hcr.mono ex⟩
      · subst h1; cases hcr
    · rcases m.survive hf with h1 | ⟨rest, e, hg⟩
      · exact .inr ⟨h', f, h1, hcr.mono ex⟩
      · have top : ∀ (S : St) (fs : List Fr), (S.goto g fs).gs g = fs := fun S fs => if_pos rfl
        cases m with
        | lock es rest' hg' hl =>
          rw [hg] at hg'; cases hg'
          refine .inr ⟨g, .enter es, ?_, hcr⟩
          show _ ∈ (s.goto g _).gs g
          rw [top]; exact List.mem_cons_self ..
        | unlock rest' hg' =>
          rw [hg] at hg'; cases hg'
          cases hcr
        | known y ys rest' hg' hs =>
          rw [hg] at hg'; cases hg'
          rcases List.mem_cons.1 hcr with e | hcr
          · subst e
            left
            obtain ⟨ob, h1, h2⟩ := found ht.ok x
            have h3 : ob.task = x.task := hx _ (hr.objs _ ob h1) h2
            obtain ⟨ob1, h4, h5⟩ := hc _ hs
            obtain ⟨ob2, h6, h7⟩ := ex.objs _ ob1 h4
            rw [show (St.goto _ _ _).inst.objs[_]? = some ob from h1] at h6
            cases h6
            exact ⟨_, ex.mem (by rw [← h3, h7]; exact ready_entered ht.ok.trace h5)⟩
          · refine .inr ⟨g, .enter ys, ?_, hcr⟩
            rw [top]; exact List.mem_cons_self ..
        | create y ys rest' hg' hs =>
          rw [hg] at hg'; cases hg'
          rcases List.mem_cons.1 hcr with e | hcr
          · subst e
            obtain ⟨ob, h1, h2⟩ := found ht.ok x
            refine .inr ⟨g, .test _ ys, ?_, .inr ⟨ob, h1, hx _ (hr.objs _ ob h1) h2⟩⟩
            rw [top]; exact List.mem_cons_self ..
          · refine .inr ⟨g, .test (s.inst.findOrCreateTask y.task).2 ys, ?_, .inl hcr⟩
            rw [top]; exact List.mem_cons_self ..
        | notReady o ob es rest' J hg' ho hcl =>
          have ht' := htest o es rest' ob hg' ho
          rw [hg] at hg'; cases hg'
          rcases hcr with hcr | ⟨ob', h1, h2⟩
          · refine .inr ⟨g, .enter es, ?_, hcr⟩
            rw [top]; exact List.mem_cons_self ..
          · rw [ho] at h1; cases h1
            exact .inl ⟨o, by rw [← h2]; exact ht'⟩
        | ready o ob es rest' J hg' ho hcl hd =>
          have ht' := htest o es rest' ob hg' ho
          rw [hg] at hg'; cases hg'
          rcases hcr with hcr | ⟨ob', h1, h2⟩
          · refine .inr ⟨g, .push o es, ?_, hcr⟩
            rw [top]; exact List.mem_cons_self ..
          · rw [ho] at h1; cases h1
            exact .inl ⟨o, by rw [← h2]; exact ht'⟩
        | skip o ob es es' n rs rest' J hg' ho hcl hr' he hd =>
          have ht' := htest o es rest' ob hg' ho
          rw [hg] at hg'; cases hg'
          rcases hcr with hcr | ⟨ob', h1, h2⟩
          · refine .inr ⟨g, .enter es, ?_, hcr⟩
            rw [top]; simp
          · rw [ho] at h1; cases h1
            exact .inl ⟨o, by rw [← h2]; exact ht'⟩
        | push o es rest' hg' =>
          rw [hg] at hg'; cases hg'
          refine .inr ⟨g, .enter es, ?_, hcr⟩
          show _ ∈ (St.goto _ g _).gs g
          rw [top]; exact List.mem_cons_self ..
        | pop o q hq hg' => rw [hg] at hg'; cases hg'
        | over o rest' hg' => rw [hg] at hg'; cases hg'; cases hcr
        | wait o rest' J hg' h => rw [hg] at hg'; cases hg'; cases hcr
        | again o rest' lg hg' => rw [hg] at hg'; cases hg'; cases hcr
        | ended o ob rest' fs J hg' ho h hf' => rw [hg] at hg'; cases hg'; cases hcr
        | rowsEnd gen rest' hg' => rw [hg] at hg'; cases hg'; cases hcr
        | row gen r rs rest' hg' h htk => rw [hg] at hg'; cases hg'; cases hcr
        | complete t n es rest' J hg' h => rw [hg] at hg'; cases hg'; cases hcr
        | proceed t n es rest' hg' => rw [hg] at hg'; cases hg'; cases hcr
        | fail rest' J hg' h => rw [hg] at hg'; cases hg'; cases hcr
        | release t rest' hg' => rw [hg] at hg'; cases hg'; cases hcr

/-- Once the error handler was started, its start tasks are entered or going to be. -/
theorem serve_reach {prio : Bool} {uri : String} (wf : ∀ l ∈ d.main.links, ∃ t ∈ d.main.tasks, t.id = l.dst) (hr : Reach prio d uri s)
    (he : d.eh.isSome) (hh : s.inst.handling = true) {x : TaskEntry} (hm : x ∈ Inst.startEntries d true) (hx : Alone d x) : Serve s x := by
  induction hr with
  | init => cases hh
  | @step s s' l hr hs ih =>
    have ht := TrOK.reach hr
    by_cases h0 : s.inst.handling = true
    · exact (ih h0).step ht (SchedOK.reach hr) hs (InMain.reach wf (.step hr hs)) hx
    · obtain ⟨g, rest, hg, e⟩ := step_handling hs (by simpa using h0) hh
      have e' : s' = { s with inst := { s.inst with handling := true }.clearTasks }.goto g (.lock (Inst.startEntries s.inst.defn true) :: rest) := by
        rw [e]; unfold failStep; rw [if_neg h0, if_pos (by rw [ht.defn]; exact he)]
      refine .inr ⟨g, .lock (Inst.startEntries d true), ?_, hm⟩
      rw [e', ht.defn]
      show _ ∈ (if g = g then _ else _)
      rw [if_pos rfl]; exact List.mem_cons_self ..

end Flow.Conc
