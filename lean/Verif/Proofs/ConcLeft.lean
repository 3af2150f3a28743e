import Verif.Proofs.ConcFail

/-
In concurrent mode: nothing is left out.
-/

namespace Flow.Conc

open Spec

variable {d : Def} {s s' : St} {g : Nat}

theorem mem_begun {tr : List Flow.Ev} {o : Nat} {t : TaskRef} (h : .taskStatus o t .ready ∈ tr) : 1 ≤ timesBegun tr t.id := by
  unfold timesBegun
  exact List.countP_pos_iff.2 ⟨_, h, by simp [beginsTask]⟩

theorem lastStatus_event {tr : List Flow.Ev} {o : Nat} (h : lastStatus tr o ≠ .notStarted) : ∃ t, .taskStatus o t (lastStatus tr o) ∈ tr := by
  induction tr with
  | nil => exact absurd rfl h
  | cons ev tr ih =>
    have other : lastStatus (ev :: tr) o = lastStatus tr o → ∃ t, .taskStatus o t (lastStatus (ev :: tr) o) ∈ ev :: tr := fun e => by
      rw [e] at h ⊢
      obtain ⟨t, ht⟩ := ih h
      exact ⟨t, List.mem_cons_of_mem _ ht⟩
    cases ev with
    | taskAdded p k =>
      by_cases e : p = o
      · exact absurd (by unfold lastStatus; rw [if_pos e]) h
      · exact other (if_neg e)
    | taskStatus p t st =>
      by_cases e : p = o
      · subst e
        have : lastStatus (.taskStatus p t st :: tr) p = st := by unfold lastStatus; rw [if_pos rfl]
        rw [this]; exact ⟨t, List.mem_cons_self ..⟩
      · exact other (if_neg e)
    | _ => exact other rfl

/-- Frames below the top stay. -/
theorem Move.tail (m : Move d s g s') {h : Nat} {top : Fr} {tl : List Fr} (hg : s.gs h = top :: tl) : ∃ new, s'.gs h = new ++ tl ∨ s'.gs h = s.gs h := by
  by_cases e : h = g
  · subst e
    obtain ⟨new, rest, h1, h2, _⟩ := m.frames
    rcases h2 with ⟨h2, _⟩ | ⟨f', h2⟩
    · rw [h2] at hg; cases hg
    · rw [h2] at hg; cases hg
      exact ⟨new, .inl h1⟩
  · exact ⟨[], .inr (m.others e)⟩

/-- Status changes are those of the task of the instance. -/
def EvObj (s : St) : Prop := ∀ o t st, .taskStatus o t st ∈ s.inst.trace → ∃ ob, s.inst.objs[o]? = some ob ∧ ob.task = t

theorem EvObj.step (ok : EvObj s) (m : Move d s g s') : EvObj s' := by
  have keep : ∀ {J : Inst}, Ext s.inst J → (∀ o t st, .taskStatus o t st ∈ J.trace → .taskStatus o t st ∈ s.inst.trace ∨ ∃ ob, s.inst.objs[o]? = some ob ∧ ob.task = t) →
      ∀ o t st, .taskStatus o t st ∈ J.trace → ∃ ob, J.objs[o]? = some ob ∧ ob.task = t := by
    intro J x hJ o t st hm
    have : ∃ ob, s.inst.objs[o]? = some ob ∧ ob.task = t := by
      rcases hJ o t st hm with h | h
      · exact ok o t st h
      · exact h
    obtain ⟨ob, h1, h2⟩ := this
    obtain ⟨ob', h3, h4⟩ := x.objs o ob h1
    exact ⟨ob', h3, h4.trans h2⟩
  have x := m.ext
  cases m with
  | pop | over | again | rowsEnd | proceed | lock | unlock | push => exact ok
  | wait _ _ _ _ h => exact keep x h.events
  | ended _ _ _ _ _ _ _ h => exact keep x h.events
  | row _ _ _ _ _ h => exact keep x h.events
  | complete _ _ _ _ _ _ h => exact keep x h.events
  | fail _ _ _ h => exact keep x h.events
  | known y => exact keep x fun o t st h => .inl (create_events _ _ _ _ _ h)
  | create y => exact keep x fun o t st h => .inl (create_events _ _ _ _ _ h)
  | notReady _ _ _ _ _ _ _ h => exact keep x h.events
  | ready _ _ _ _ _ _ _ h => exact keep x h.events
  | skip _ _ _ _ _ _ _ _ _ _ h => exact keep x h.events
  | release t => exact keep x fun o u st h => .inl ((release_facts s.inst t).2.2.1 o u st h)

theorem EvObj.init (d : Def) (uri : String) : EvObj (init d uri) := by
  intro o t st h
  have h : .taskStatus o t st ∈ [Flow.Ev.flowStatus .active] := h
  simp at h

theorem EvObj.reach {prio : Bool} {uri : String} (h : Reach prio d uri s) : EvObj s := by
  induction h with
  | init => exact EvObj.init d uri
  | @step s s' l hr hs ih =>
    have ht := TrOK.reach hr
    rcases step_case ht hs with ⟨g, rest, hg, e⟩ | ⟨g, m, _⟩
    · subst e
      intro o t st hm
      have hm : .taskStatus o t st ∈ s.inst.trace := by
        unfold failStep at hm
        split at hm
        · rcases List.mem_cons.1 hm with e | hm
          · cases e
          · exact hm
        · split at hm
          · rcases List.mem_cons.1 hm with e | hm
            · cases e
            · exact hm
          · rcases List.mem_cons.1 hm with e | hm
            · cases e
            · exact hm
      obtain ⟨ob, h1, h2⟩ := ih o t st hm
      obtain ⟨ob', h3, h4⟩ := (failStep_ext (s := s) g rest).objs o ob h1
      exact ⟨ob', h3, h4.trans h2⟩
    · exact ih.step m

/-- How a step ends a task. -/
theorem Move.endings (m : Move d s g s') (k : TaskId) : timesEnded s'.inst.trace k = timesEnded s.inst.trace k ∨
    ∃ (o : Nat) (ob : Obj), s.inst.objs[o]? = some ob ∧ ob.task.id = k ∧ (.fail ∈ s'.gs g ∨
      ∃ rs es f post, s'.gs g = .rows s.gen rs :: f :: post ∧ s'.gen = s.gen ∧ Covers d ob.task rs es ∧ (f = .lock es ∨ ∃ n, f = .finish ob.task n es)) := by
  have self : ∀ (S : St) (fs : List Fr), (S.goto g fs).gs g = fs := fun S fs => if_pos rfl
  cases m with
  | pop | over | again | rowsEnd | proceed | lock | unlock | push => exact .inl rfl
  | wait _ _ _ _ h => exact .inl (h.ended k)
  | ended o ob rest fs J hg ho h hf =>
    have h1 := h.ended k
    rw [objTok_one ho] at h1
    split at h1
    · rename_i e
      refine .inr ⟨o, ob, ho, e, ?_⟩
      rw [self]
      cases hf with
      | fails h1 => left; simp
      | unhandled => left; simp
      | done h1 h2 h3 => exact .inr ⟨_, _, _, _, rfl, rfl, h3, .inr ⟨_, rfl⟩⟩
      | handled h1 h2 h3 => exact .inr ⟨_, _, _, _, rfl, rfl, h3, .inl rfl⟩
    · exact .inl h1
  | row _ _ _ _ _ h => exact .inl (h.ended k)
  | complete _ _ _ _ _ _ h => exact .inl (h.ended k)
  | fail _ _ _ h => exact .inl (h.ended k)
  | known x => exact .inl (ends_create ..)
  | create x => exact .inl (ends_create ..)
  | notReady _ _ _ _ _ _ _ h => exact .inl (h.ended k)
  | ready _ _ _ _ _ _ _ h => exact .inl (h.ended k)
  | skip o ob es es' n rs rest J hg ho h hr he hd hc =>
    have h1 := h.ended k
    rw [objTok_one ho] at h1
    split at h1
    · rename_i e
      refine .inr ⟨o, ob, ho, e, .inr ⟨rs, es', _, _, self _ _, rfl, hc, .inr ⟨_, rfl⟩⟩⟩
    · exact .inl h1
  | release t => exact .inl (ends_release ..)

/-! ### The invariant -/

/-- The entries lead to the task. -/
def Leads (k : TaskId) (es : List TaskEntry) : Prop := ∃ x ∈ es, x.task.id = k

/-- The instance is one of the task. -/
def Is (I : Inst) (k : TaskId) (o : Nat) : Prop := ∃ ob, I.objs[o]? = some ob ∧ ob.task.id = k

theorem Is.mono {I J : Inst} {k : TaskId} {o : Nat} (h : Is I k o) (x : Ext I J) : Is J k o := by
  obtain ⟨ob, h1, h2⟩ := h
  obtain ⟨ob', h3, h4⟩ := x.objs o ob h1
  exact ⟨ob', h3, by rw [h4]; exact h2⟩

/-- The goroutine is going to enter the task. -/
def Carry (I : Inst) (k : TaskId) : Fr → Prop
  | .finish _ _ es => Leads k es
  | .lock es => Leads k es
  | .enter es => Leads k es
  | .push _ es => Leads k es
  | .test o es => Leads k es ∨ Is I k o
  | _ => False

theorem Carry.mono {I J : Inst} {k : TaskId} {f : Fr} (h : Carry I k f) (x : Ext I J) : Carry J k f := by
  cases f with
  | test o es =>
    rcases h with h | h
    · exact .inl h
    · exact .inr (h.mono x)
  | _ => exact h

def Held (s : St) (k : TaskId) : Prop := ∃ h f, f ∈ s.gs h ∧ Carry s.inst k f

/-- No error was left to the error handler, and the flow is not complete. -/
structure Normal (s : St) : Prop where
  handling : s.inst.handling = false
  fail : ∀ h, .fail ∉ s.gs h
  open_ : .flowStatus .completed ∉ s.inst.trace

theorem Normal.before {prio : Bool} {l : Label} (n : Normal s') (ht : TrOK d s) (h : step prio s l = some s') : Normal s := by
  have x := step_ext ht h
  refine ⟨?_, fun k hf => ?_, fun hc => n.open_ (x.mem hc)⟩
  · cases hh : s.inst.handling with
    | false => rfl
    | true => rw [← n.handling, x.handling hh]
  · rcases step_case ht h with ⟨g, rest, hg, e⟩ | ⟨g, m, hn, _⟩
    · have : s'.inst.handling = true := by
        rw [e]
        unfold failStep
        split
        · assumption
        · split <;> rfl
      rw [n.handling] at this; cases this
    · rcases m.survive hf with h1 | ⟨rest, _, h1⟩
      · exact n.fail k h1
      · exact hn rest h1

/-- A goroutine is going to set the link and to enter its target. -/
def Sets (s : St) (l : LinkDef) : Prop :=
  ∃ h gen rs pre post, s.gs h = pre ++ .rows gen rs :: post ∧ (∃ r ∈ rs, r.1.id = l.id) ∧ gen l.id = s.gen l.id ∧ ∃ f ∈ post, Carry s.inst l.dst f

/-- The instance waits for its execution or is executed. -/
def Active (s : St) (k : TaskId) : Prop :=
  (∃ o ∈ s.queue, Is s.inst k o) ∨ (∃ h o, .run o ∈ s.gs h ∧ Is s.inst k o) ∨ (∃ h o es, .push o es ∈ s.gs h ∧ Is s.inst k o) ∨
    ∃ o t, t.id = k ∧ .taskStatus o t .waiting ∈ s.inst.trace

structure LeftOK (d : Def) (s : St) : Prop where
  rows : ∀ l ∈ d.main.links, 1 ≤ timesEnded s.inst.trace l.src → timesBegun s.inst.trace l.dst = 0 → s.inst.linkSt l.id ≠ .unset ∨ Sets s l
  held : ∀ t ∈ d.main.tasks, timesBegun s.inst.trace t.id = 0 → (∃ l ∈ into d t.id, timesEnded s.inst.trace l.src = 0) ∨ Held s t.id
  act : ∀ k, 1 ≤ timesBegun s.inst.trace k → 1 ≤ timesEnded s.inst.trace k ∨ Active s k

theorem LeftOK.init (d : Def) (uri : String) : LeftOK d (init d uri) := by
  refine ⟨fun l _ h _ => ?_, fun t ht _ => ?_, fun k h => ?_⟩
  · exact absurd h (by show ¬ 1 ≤ timesEnded [Flow.Ev.flowStatus .active] l.src; simp [timesEnded, endsTask])
  · by_cases hn : into d t.id = []
    · right
      refine ⟨0, .lock (Inst.startEntries d false), List.mem_singleton.2 rfl, ⟨⟨false, t.id⟩, 0⟩, List.mem_map.2 ⟨t, List.mem_filter.2 ⟨ht, ?_⟩, rfl⟩, rfl⟩
      have hn : d.fromLinks ⟨false, t.id⟩ = [] := hn
      rw [hn]; rfl
    · obtain ⟨l, hl⟩ := List.exists_mem_of_ne_nil _ hn
      exact .inl ⟨l, hl, rfl⟩
  · exact absurd h (by show ¬ 1 ≤ timesBegun [Flow.Ev.flowStatus .active] k; simp [timesBegun, beginsTask])

/-- A task that ended in this step leads to its successors. -/
theorem ends_sets (m : Move d s g s') (he : EhOK s) (n : Normal s') {l : LinkDef} (hl : l ∈ d.main.links)
    (h : timesEnded s'.inst.trace l.src ≠ timesEnded s.inst.trace l.src) :
    ∃ rs f post, s'.gs g = .rows s.gen rs :: f :: post ∧ s'.gen = s.gen ∧ (∃ r ∈ rs, r.1.id = l.id) ∧ Carry s'.inst l.dst f := by
  rcases m.endings l.src with h1 | ⟨o, ob, ho, hk, h1 | ⟨rs, es, f, post, h1, h2, h3, h4⟩⟩
  · exact absurd h1 h
  · exact absurd h1 (n.fail g)
  · have ht := he.objs o ob ho
    have hm : l ∈ d.toLinks ob.task := by
      unfold Def.toLinks
      rw [ht]
      exact List.mem_filter.2 ⟨hl, by simp [hk]⟩
    obtain ⟨⟨r, h5, h6⟩, x, h7, h8⟩ := h3 l hm
    refine ⟨rs, f, post, h1, h2, ⟨r, h5, by rw [h6]⟩, ?_⟩
    have : Leads l.dst es := ⟨x, h7, by rw [h8]⟩
    rcases h4 with e | ⟨n, e⟩ <;> (subst e; exact this)

/-- The target of the link has not begun, hence its instance is not removed. -/
theorem not_released (he : EhOK s) (ht : TrOK d s) (jo : JoinOK d s) (wf : (d.main.links.map (·.id)).Nodup) {l : LinkDef} (hl : l ∈ d.main.links)
    (hb : timesBegun s.inst.trace l.dst = 0) {t : TaskRef} {rest : List Fr} (hg : s.gs g = .release t :: rest) :
    l.id ∉ (s.inst.defn.fromLinks t).map (·.id) := by
  intro hm
  rw [ht.defn] at hm
  obtain ⟨l', h1, h2⟩ := List.mem_map.1 hm
  have hf : Fr.release t ∈ s.gs g := by rw [hg]; exact List.mem_cons_self ..
  have hte : t.eh = false := he.frames g _ hf
  have h3 := mem_fromLinks.1 h1
  rw [hte] at h3
  have e := same_link (gr := d.main) wf h3.1 hl h2
  have h4 := jo.refs g _ t hf rfl
  rw [← h3.2, e, hb] at h4
  omega

theorem gen_same (m : Move d s g s') (he : EhOK s) (ht : TrOK d s) (jo : JoinOK d s) (wf : (d.main.links.map (·.id)).Nodup) {l : LinkDef} (hl : l ∈ d.main.links)
    (hb : timesBegun s.inst.trace l.dst = 0) : s'.gen l.id = s.gen l.id := by
  cases m with
  | release t rest hg => exact if_neg (not_released he ht jo wf hl hb hg)
  | _ => rfl

theorem row_decided (ht : TrOK d s) {h : Nat} {gen : LinkId → Nat} {rs : List (LinkDef × LinkStatus)} (hf : .rows gen rs ∈ s.gs h)
    {r : LinkDef × LinkStatus} (hr : r ∈ rs) : r.2 ≠ .unset := by
  intro e
  obtain ⟨_, _, _, _, _, h⟩ := ht.frames h _ hf r hr
  rw [e] at h
  exact h

theorem decided_same (m : Move d s g s') (he : EhOK s) (ht : TrOK d s) (jo : JoinOK d s) (wf : (d.main.links.map (·.id)).Nodup) {l : LinkDef} (hl : l ∈ d.main.links)
    (hb : timesBegun s.inst.trace l.dst = 0) (hd : s.inst.linkSt l.id ≠ .unset) : s'.inst.linkSt l.id ≠ .unset := by
  cases m with
  | pop | over | again | rowsEnd | proceed | lock | unlock | push => exact hd
  | wait _ _ _ _ c => exact fun h => hd ((c.links l.id).symm.trans h)
  | ended _ _ _ _ _ _ _ c => exact fun h => hd ((c.links l.id).symm.trans h)
  | row gen r rs rest hg =>
    have hr := row_decided ht (h := g) (gen := gen) (rs := r :: rs) (by rw [hg]; exact List.mem_cons_self ..) (List.mem_cons_self ..)
    show (setPtr s gen r).linkSt l.id ≠ .unset
    unfold setPtr
    split
    · show ((s.inst.links.set r.1.id r.2).get? l.id).getD .unset ≠ _
      by_cases e : r.1.id = l.id
      · rw [e, AMap.get?_set_self]; exact hr
      · rw [AMap.get?_set_ne _ _ e]; exact hd
    · exact hd
  | complete _ _ _ _ _ _ c => exact fun h => hd ((c.links l.id).symm.trans h)
  | fail _ _ _ c => exact fun h => hd ((c.links l.id).symm.trans h)
  | known x => exact fun h => hd ((create_links ..).symm.trans h)
  | create x => exact fun h => hd ((create_links ..).symm.trans h)
  | notReady _ _ _ _ _ _ _ c => exact fun h => hd ((c.links l.id).symm.trans h)
  | ready _ _ _ _ _ _ _ c => exact fun h => hd ((c.links l.id).symm.trans h)
  | skip _ _ _ _ _ _ _ _ _ _ c => exact fun h => hd ((c.links l.id).symm.trans h)
  | release t rest hg =>
    have h := (release_facts s.inst t).2.2.2 l.id
    rw [if_neg (not_released he ht jo wf hl hb hg)] at h
    exact fun h' => hd (h.symm.trans h')

/-- The rows that are still to be set stay, except for the one that is set. -/
theorem Sets.step (m : Move d s g s') (he : EhOK s) (ht : TrOK d s) (jo : JoinOK d s) (wf : (d.main.links.map (·.id)).Nodup) {l : LinkDef} (hl : l ∈ d.main.links)
    (hb : timesBegun s.inst.trace l.dst = 0) (h : Sets s l) : s'.inst.linkSt l.id ≠ .unset ∨ Sets s' l := by
  obtain ⟨h, gen, rs, pre, post, hg, ⟨r, hr, e⟩, hgen, f, hf, hcf⟩ := h
  have hgs := gen_same m he ht jo wf hl hb
  have x := m.ext
  cases pre with
  | cons p pre =>
    obtain ⟨new, h1 | h1⟩ := m.tail hg
    · exact .inr ⟨h, gen, rs, new ++ pre, post, by rw [h1, List.append_assoc]; rfl, ⟨r, hr, e⟩, hgen.trans hgs.symm, f, hf, hcf.mono x⟩
    · exact .inr ⟨h, gen, rs, p :: pre, post, by rw [h1, hg], ⟨r, hr, e⟩, hgen.trans hgs.symm, f, hf, hcf.mono x⟩
  | nil =>
    by_cases eh : h = g
    · subst eh
      have hg : s.gs h = .rows gen rs :: post := hg
      cases m with
      | row gen' r' rs' rest' hg' h1 h2 =>
        rw [hg] at hg'; cases hg'
        rcases List.mem_cons.1 hr with er | hr
        · subst er
          left
          have hrd := row_decided ht (h := h) (gen := gen) (rs := r :: rs') (by rw [hg]; exact List.mem_cons_self ..) (List.mem_cons_self ..)
          show (setPtr s gen r).linkSt l.id ≠ .unset
          unfold setPtr
          rw [e, if_pos hgen]
          show ((s.inst.links.set l.id r.2).get? l.id).getD .unset ≠ _
          rw [AMap.get?_set_self]; exact hrd
        · exact .inr ⟨h, gen, rs', [], post, if_pos rfl, ⟨r, hr, e⟩, hgen, f, hf, hcf.mono x⟩
      | rowsEnd gen' rest' hg' => rw [hg] at hg'; cases hg'; cases hr
      | pop o q hq hg' => rw [hg] at hg'; cases hg'
      | over o rest' hg' => rw [hg] at hg'; cases hg'
      | wait o rest' J hg' => rw [hg] at hg'; cases hg'
      | again o rest' lg hg' => rw [hg] at hg'; cases hg'
      | ended o ob rest' fs J hg' => rw [hg] at hg'; cases hg'
      | complete t n es rest' J hg' => rw [hg] at hg'; cases hg'
      | proceed t n es rest' hg' => rw [hg] at hg'; cases hg'
      | fail rest' J hg' => rw [hg] at hg'; cases hg'
      | lock es rest' hg' => rw [hg] at hg'; cases hg'
      | unlock rest' hg' => rw [hg] at hg'; cases hg'
      | known y ys rest' hg' => rw [hg] at hg'; cases hg'
      | create y ys rest' hg' => rw [hg] at hg'; cases hg'
      | notReady o ob es rest' J hg' => rw [hg] at hg'; cases hg'
      | ready o ob es rest' J hg' => rw [hg] at hg'; cases hg'
      | skip o ob es es' n rs rest' J hg' => rw [hg] at hg'; cases hg'
      | push o es rest' hg' => rw [hg] at hg'; cases hg'
      | release t rest' hg' => rw [hg] at hg'; cases hg'
    · exact .inr ⟨h, gen, rs, [], post, by rw [m.others eh]; exact hg, ⟨r, hr, e⟩, hgen.trans hgs.symm, f, hf, hcf.mono x⟩

/-- A frame below the top that carries a task is still there after the step. -/
theorem Sets.held (m : Move d s g s') {l : LinkDef} (h : Sets s l) : Held s' l.dst := by
  obtain ⟨h, gen, rs, pre, post, hg, _, _, f, hf, hcf⟩ := h
  have x := m.ext
  have : ∃ top tl, s.gs h = top :: tl ∧ f ∈ tl := by
    cases pre with
    | nil => exact ⟨_, _, hg, hf⟩
    | cons p pre => exact ⟨p, _, hg, List.mem_append_right _ (List.mem_cons_of_mem _ hf)⟩
  obtain ⟨top, tl, h1, h2⟩ := this
  refine ⟨h, f, ?_, hcf.mono x⟩
  obtain ⟨new, h3 | h3⟩ := m.tail h1
  · rw [h3]; exact List.mem_append_right _ h2
  · rw [h3, h1]; exact List.mem_cons_of_mem _ h2

/-- What carries a task that has not begun does so after the step, unless the task begins or a source has not ended. -/
theorem Held.step (ok : LeftOK d s) (m : Move d s g s') (he : EhOK s) (ht : TrOK d s) (hc : SchedOK s) (n : Normal s') {k : TaskId}
    (hb : timesBegun s'.inst.trace k = 0) (h : Held s k) : (∃ l ∈ into d k, timesEnded s'.inst.trace l.src = 0) ∨ Held s' k := by
  obtain ⟨h, f, hf, hcf⟩ := h
  have x := m.ext
  have self : ∀ (S : St) (fs : List Fr), (S.goto g fs).gs g = fs := fun S fs => if_pos rfl
  have hb0 : timesBegun s.inst.trace k = 0 := by have := begun_mono x k; omega
  rcases m.survive hf with h1 | ⟨rest, e, hg⟩
  · exact .inr ⟨h, f, h1, hcf.mono x⟩
  · have put : ∀ {f' : Fr}, f' ∈ s'.gs g → Carry s'.inst k f' → (∃ l ∈ into d k, timesEnded s'.inst.trace l.src = 0) ∨ Held s' k :=
      fun h1 h2 => .inr ⟨g, _, h1, h2⟩
    cases m with
    | proceed t n' es rest' hg' =>
      rw [hg] at hg'; cases hg'
      exact put (f' := .lock es) (by rw [self]; exact List.mem_cons_self ..) hcf
    | complete t n' es rest' J hg' h1 h2 => exact absurd h2 n.open_
    | lock es rest' hg' hl =>
      rw [hg] at hg'; cases hg'
      refine put (f' := .enter es) ?_ hcf
      show _ ∈ (s.goto g _).gs g
      rw [self]; exact List.mem_cons_self ..
    | unlock rest' hg' =>
      rw [hg] at hg'; cases hg'
      obtain ⟨_, h1, _⟩ := hcf
      cases h1
    | known y ys rest' hg' hsc =>
      rw [hg] at hg'; cases hg'
      obtain ⟨z, hz, ez⟩ := hcf
      rcases List.mem_cons.1 hz with e | hz
      · subst e
        obtain ⟨ob, h1, h2⟩ := found ht.ok z
        obtain ⟨ob1, h4, h5⟩ := hc _ hsc
        obtain ⟨ob2, h6, h7⟩ := x.objs _ ob1 h4
        rw [show (St.goto _ _ _).inst.objs[_]? = some ob from h1] at h6
        cases h6
        have := mem_begun h5
        rw [← h7, h2, ez, hb0] at this
        omega
      · exact put (f' := .enter ys) (by rw [self]; exact List.mem_cons_self ..) ⟨z, hz, ez⟩
    | create y ys rest' hg' hsc =>
      rw [hg] at hg'; cases hg'
      obtain ⟨z, hz, ez⟩ := hcf
      rcases List.mem_cons.1 hz with e | hz
      · subst e
        obtain ⟨ob, h1, h2⟩ := found ht.ok z
        exact put (f' := .test (s.inst.findOrCreateTask z.task).2 ys) (by rw [self]; exact List.mem_cons_self ..) (.inr ⟨ob, h1, h2.trans ez⟩)
      · exact put (f' := .test (s.inst.findOrCreateTask y.task).2 ys) (by rw [self]; exact List.mem_cons_self ..) (.inl ⟨z, hz, ez⟩)
    | notReady o ob es rest' J hg' ho hcl hu =>
      have mv : Move d s g ({ s with inst := J }.goto g (.enter es :: rest')) := .notReady o ob es rest' J hg' ho hcl hu
      rw [hg] at hg'; cases hg'
      rcases hcf with hcf | ⟨ob', h1, h2⟩
      · exact put (f' := .enter es) (by rw [self]; exact List.mem_cons_self ..) hcf
      · rw [ho] at h1; cases h1
        obtain ⟨l, hl, hlu⟩ := hu
        have hte := he.objs o ob ho
        have hl' : l ∈ into d k := by
          have : ob.task = ⟨false, k⟩ := by
            have h3 : ob.task = ⟨ob.task.eh, ob.task.id⟩ := rfl
            rw [h3, h2, show ob.task.eh = false from hte]
          rw [this] at hl; exact hl
        by_cases hend : timesEnded s.inst.trace l.src = 0
        · exact .inl ⟨l, hl', (hcl.ended l.src).trans hend⟩
        · have hlm := mem_fromLinks.1 hl'
          have hdst : l.dst = k := hlm.2
          rcases ok.rows l hlm.1 (by omega) (by rw [hdst]; exact hb0) with h3 | h3
          · exact absurd hlu h3
          · have := h3.held mv
            rw [hdst] at this
            exact .inr this
    | ready o ob es rest' J hg' ho hcl hd =>
      rw [hg] at hg'; cases hg'
      rcases hcf with hcf | ⟨ob', h1, h2⟩
      · exact put (f' := .push o es) (by rw [self]; exact List.mem_cons_self ..) hcf
      · rw [ho] at h1; cases h1
        have h3 := hcl.begun k
        rw [objTok_one ho, if_pos h2] at h3
        have hb : timesBegun J.trace k = 0 := hb
        omega
    | skip o ob es es' n' rs rest' J hg' ho hcl hr' hee hd =>
      rw [hg] at hg'; cases hg'
      rcases hcf with hcf | ⟨ob', h1, h2⟩
      · exact put (f' := .enter es) (by rw [self]; simp) hcf
      · rw [ho] at h1; cases h1
        have h3 := hcl.begun k
        rw [objTok_one ho, if_pos h2] at h3
        have hb : timesBegun J.trace k = 0 := hb
        omega
    | push o es rest' hg' =>
      rw [hg] at hg'; cases hg'
      refine put (f' := .enter es) ?_ hcf
      show _ ∈ (St.goto _ g _).gs g
      rw [self]; exact List.mem_cons_self ..
    | pop o q hq hg' => rw [hg] at hg'; cases hg'
    | over o rest' hg' => rw [hg] at hg'; cases hg'; cases hcf
    | wait o rest' J hg' h => rw [hg] at hg'; cases hg'; cases hcf
    | again o rest' lg hg' => rw [hg] at hg'; cases hg'; cases hcf
    | ended o ob rest' fs J hg' ho h hf' => rw [hg] at hg'; cases hg'; cases hcf
    | rowsEnd gen rest' hg' => rw [hg] at hg'; cases hg'; cases hcf
    | row gen r rs rest' hg' h htk => rw [hg] at hg'; cases hg'; cases hcf
    | fail rest' J hg' h => rw [hg] at hg'; cases hg'; cases hcf
    | release t rest' hg' => rw [hg] at hg'; cases hg'; cases hcf

theorem Active.step (m : Move d s g s') (ht : TrOK d s) (eo : EvObj s) {k : TaskId} (h : Active s k) : 1 ≤ timesEnded s'.inst.trace k ∨ Active s' k := by
  have x := m.ext
  have self : ∀ (S : St) (fs : List Fr), (S.goto g fs).gs g = fs := fun S fs => if_pos rfl
  rcases h with ⟨o, ho, hi⟩ | ⟨h, o, hf, hi⟩ | ⟨h, o, es, hf, hi⟩ | ⟨o, t, e, hm⟩
  · cases m with
    | pop p q hq hg =>
      rw [hq] at ho
      rcases List.mem_cons.1 ho with e | ho
      · subst e
        exact .inr (.inr (.inl ⟨g, o, by rw [self]; exact List.mem_cons_self .., hi.mono x⟩))
      · exact .inr (.inl ⟨o, ho, hi.mono x⟩)
    | again p rest lg hg => exact .inr (.inl ⟨o, List.mem_append_left _ ho, hi.mono x⟩)
    | push p es rest hg => exact .inr (.inl ⟨o, List.mem_append_left _ ho, hi.mono x⟩)
    | _ => exact .inr (.inl ⟨o, ho, hi.mono x⟩)
  · rcases m.survive hf with h1 | ⟨rest, e, hg⟩
    · exact .inr (.inr (.inl ⟨h, o, h1, hi.mono x⟩))
    · cases m with
      | over p rest' hg' hst =>
        rw [hg] at hg'; cases hg'
        obtain ⟨ob, h1, h2⟩ := hi
        obtain ⟨ob', h3, h4⟩ := hst
        rw [h1] at h3; cases h3
        left
        have h5 := ht.ok.mirror.stat o ob h1
        obtain ⟨t, h6⟩ := lastStatus_event (tr := s.inst.trace) (o := o) (by rw [← h5]; rcases h4 with h4 | h4 <;> (rw [h4]; simp))
        obtain ⟨ob2, h7, h8⟩ := eo _ _ _ h6
        rw [h1] at h7; cases h7
        rw [← h2, h8]
        exact mem_ended h6 (by rw [← h5]; rcases h4 with h4 | h4 <;> (rw [h4]; rfl))
      | wait p rest' J hg' h1 hw =>
        rw [hg] at hg'; cases hg'
        obtain ⟨ob, h1, h2⟩ := hi
        obtain ⟨ob', h3, h4⟩ := hw
        rw [h1] at h3; cases h3
        exact .inr (.inr (.inr (.inr ⟨o, ob.task, h2, h4⟩)))
      | again p rest' lg hg' =>
        rw [hg] at hg'; cases hg'
        exact .inr (.inl ⟨o, List.mem_append_right _ (List.mem_singleton.2 rfl), hi.mono x⟩)
      | ended p ob rest' fs J hg' ho h1 hf' =>
        rw [hg] at hg'; cases hg'
        obtain ⟨ob', h2, h3⟩ := hi
        rw [ho] at h2; cases h2
        have h4 := h1.ended k
        rw [objTok_one ho, if_pos h3] at h4
        left
        show 1 ≤ timesEnded J.trace k
        omega
      | rowsEnd gen' rest' hg' => rw [hg] at hg'; cases hg'
      | row gen' r rs rest' hg' => rw [hg] at hg'; cases hg'
      | pop o q hq hg' => rw [hg] at hg'; cases hg'
      | complete t n es rest' J hg' => rw [hg] at hg'; cases hg'
      | proceed t n es rest' hg' => rw [hg] at hg'; cases hg'
      | fail rest' J hg' => rw [hg] at hg'; cases hg'
      | lock es rest' hg' => rw [hg] at hg'; cases hg'
      | unlock rest' hg' => rw [hg] at hg'; cases hg'
      | known y ys rest' hg' => rw [hg] at hg'; cases hg'
      | create y ys rest' hg' => rw [hg] at hg'; cases hg'
      | notReady o ob es rest' J hg' => rw [hg] at hg'; cases hg'
      | ready o ob es rest' J hg' => rw [hg] at hg'; cases hg'
      | skip o ob es es' n rs rest' J hg' => rw [hg] at hg'; cases hg'
      | push o es rest' hg' => rw [hg] at hg'; cases hg'
      | release t rest' hg' => rw [hg] at hg'; cases hg'
  · rcases m.survive hf with h1 | ⟨rest, e, hg⟩
    · exact .inr (.inr (.inr (.inl ⟨h, o, es, h1, hi.mono x⟩)))
    · cases m with
      | push p es' rest' hg' =>
        rw [hg] at hg'; cases hg'
        exact .inr (.inl ⟨o, List.mem_append_right _ (List.mem_singleton.2 rfl), hi.mono x⟩)
      | over o rest' hg' => rw [hg] at hg'; cases hg'
      | wait o rest' J hg' => rw [hg] at hg'; cases hg'
      | again o rest' lg hg' => rw [hg] at hg'; cases hg'
      | ended o ob rest' fs J hg' => rw [hg] at hg'; cases hg'
      | rowsEnd gen' rest' hg' => rw [hg] at hg'; cases hg'
      | row gen' r rs rest' hg' => rw [hg] at hg'; cases hg'
      | pop o q hq hg' => rw [hg] at hg'; cases hg'
      | complete t n es rest' J hg' => rw [hg] at hg'; cases hg'
      | proceed t n es rest' hg' => rw [hg] at hg'; cases hg'
      | fail rest' J hg' => rw [hg] at hg'; cases hg'
      | lock es rest' hg' => rw [hg] at hg'; cases hg'
      | unlock rest' hg' => rw [hg] at hg'; cases hg'
      | known y ys rest' hg' => rw [hg] at hg'; cases hg'
      | create y ys rest' hg' => rw [hg] at hg'; cases hg'
      | notReady o ob es rest' J hg' => rw [hg] at hg'; cases hg'
      | ready o ob es rest' J hg' => rw [hg] at hg'; cases hg'
      | skip o ob es es' n rs rest' J hg' => rw [hg] at hg'; cases hg'
      | release t rest' hg' => rw [hg] at hg'; cases hg'
  · exact .inr (.inr (.inr (.inr ⟨o, t, e, x.mem hm⟩)))

theorem LeftOK.step {prio : Bool} {lb : Label} (ok : LeftOK d s) (wf : WellFormed d.main) (ht : TrOK d s) (hc : SchedOK s) (eo : EvObj s) (bo : BeginOK d s)
    (hs : step prio s lb = some s') (n : Normal s') : LeftOK d s' := by
  obtain ⟨g, m⟩ := step_move ht hs (.inl n.handling)
  have x := m.ext
  refine ⟨fun l hl h1 h2 => ?_, fun t htm h1 => ?_, fun k h1 => ?_⟩
  · have hb : timesBegun s.inst.trace l.dst = 0 := by have := begun_mono x l.dst; omega
    by_cases he : timesEnded s'.inst.trace l.src = timesEnded s.inst.trace l.src
    · rcases ok.rows l hl (by omega) hb with h3 | h3
      · exact .inl (decided_same m bo.eh ht bo.join wf.links hl hb h3)
      · exact h3.step m bo.eh ht bo.join wf.links hl hb
    · obtain ⟨rs, f, post, h3, h4, h5, h6⟩ := ends_sets m bo.eh n hl he
      exact .inr ⟨g, s.gen, rs, [], f :: post, h3, h5, by rw [h4], f, List.mem_cons_self .., h6⟩
  · have hb : timesBegun s.inst.trace t.id = 0 := by have := begun_mono x t.id; omega
    rcases ok.held t htm hb with ⟨l, hl, h2⟩ | h2
    · by_cases he : timesEnded s'.inst.trace l.src = timesEnded s.inst.trace l.src
      · exact .inl ⟨l, hl, he.trans h2⟩
      · have hlm := mem_fromLinks.1 hl
        obtain ⟨rs, f, post, h3, h4, h5, h6⟩ := ends_sets m bo.eh n hlm.1 he
        have hdst : l.dst = t.id := hlm.2
        rw [hdst] at h6
        exact .inr ⟨g, f, by rw [h3]; simp, h6⟩
    · exact h2.step ok m bo.eh ht hc n h1
  · by_cases hb : 1 ≤ timesBegun s.inst.trace k
    · rcases ok.act k hb with h2 | h2
      · exact .inl (Nat.le_trans h2 (ends_mono x k))
      · exact h2.step m ht eo
    · rcases m.begun k with h2 | ⟨⟨o, es, rest, ob, hg, ho, e, hd⟩, h2⟩
      · omega
      · cases m with
        | ready o' ob' es' rest' J hg' ho' hcl hd' =>
          rw [hg] at hg'; cases hg'
          refine .inr (.inr (.inr (.inl ⟨g, o, es, ?_, Is.mono ⟨ob, ho, e⟩ x⟩)))
          show _ ∈ (St.goto _ g _).gs g
          rw [show (St.goto _ g _).gs g = _ from if_pos rfl]; exact List.mem_cons_self ..
        | skip o' ob' es' es'' n' rs rest' J hg' ho' hcl hr' hee hd' =>
          rw [hg] at hg'; cases hg'
          rw [ho] at ho'; cases ho'
          left
          have h4 := hcl.ended k
          rw [objTok_one ho, if_pos e] at h4
          show 1 ≤ timesEnded J.trace k
          omega
        | notReady o' ob' es' rest' J hg' ho' hcl hu =>
          have h4 := hcl.begun k
          have h2 : timesBegun J.trace k = _ := h2
          rw [h4] at h2
          have : zero k = 0 := rfl
          omega
        | over o rest' hg' => rw [hg] at hg'; cases hg'
        | wait o rest' J hg' => rw [hg] at hg'; cases hg'
        | again o rest' lg hg' => rw [hg] at hg'; cases hg'
        | ended o ob rest' fs J hg' => rw [hg] at hg'; cases hg'
        | rowsEnd gen' rest' hg' => rw [hg] at hg'; cases hg'
        | row gen' r rs rest' hg' => rw [hg] at hg'; cases hg'
        | pop o q hq hg' => rw [hg] at hg'; cases hg'
        | complete t n es rest' J hg' => rw [hg] at hg'; cases hg'
        | proceed t n es rest' hg' => rw [hg] at hg'; cases hg'
        | fail rest' J hg' => rw [hg] at hg'; cases hg'
        | lock es rest' hg' => rw [hg] at hg'; cases hg'
        | unlock rest' hg' => rw [hg] at hg'; cases hg'
        | known y ys rest' hg' => rw [hg] at hg'; cases hg'
        | create y ys rest' hg' => rw [hg] at hg'; cases hg'
        | push o es rest' hg' => rw [hg] at hg'; cases hg'
        | release t rest' hg' => rw [hg] at hg'; cases hg'

theorem LeftOK.reach {prio : Bool} {uri : String} (wf : WellFormed d.main) (h : Reach prio d uri s) (n : Normal s) : LeftOK d s := by
  induction h with
  | init => exact LeftOK.init d uri
  | step hr hs ih =>
    have ht := TrOK.reach hr
    have n0 := n.before ht hs
    exact (ih n0).step wf ht (SchedOK.reach hr) (EvObj.reach hr) (BeginOK.reach wf hr (.inl n0.handling)) hs n

end Flow.Conc
