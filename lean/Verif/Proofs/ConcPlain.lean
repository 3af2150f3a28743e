import Verif.Proofs.ConcLeft

/-
In concurrent mode: if all links of the flow are followed whenever their source is done, no task is skipped.
-/

namespace Flow.Conc

open Spec

variable {d : Def} {s s' : St} {g : Nat}

/-! ### Sets of such links -/

/-- What is left of the sets of a task. -/
def Form (d : Def) (rs : List (LinkDef × LinkStatus)) : Prop := ∃ k, rs <:+ pairs (d.toLinks ⟨false, k⟩)

theorem mem_pairs {ls : List LinkDef} {r : LinkDef × LinkStatus} : r ∈ pairs ls ↔ r.1 ∈ ls ∧ (r.2 = .false ∨ r.2 = .true) := by
  unfold pairs
  constructor
  · intro h
    obtain ⟨l, hl, hr⟩ := List.mem_flatMap.1 h
    simp only [List.mem_cons, List.not_mem_nil, or_false] at hr
    rcases hr with e | e
    · subst e; exact ⟨hl, .inl rfl⟩
    · subst e; exact ⟨hl, .inr rfl⟩
  · rintro ⟨h1, h2⟩
    refine List.mem_flatMap.2 ⟨r.1, h1, ?_⟩
    obtain ⟨a, b⟩ := r
    rcases h2 with e | e
    · have e : b = .false := e
      subst e; simp
    · have e : b = .true := e
      subst e; simp

theorem Form.cons {r : LinkDef × LinkStatus} {rs : List (LinkDef × LinkStatus)} (h : Form d (r :: rs)) : Form d rs := by
  obtain ⟨k, h⟩ := h
  exact ⟨k, (List.suffix_cons r rs).trans h⟩

/-- A link that is set to not followed is set to followed next. -/
theorem pairs_next : ∀ {ls : List LinkDef} {l : LinkDef} {rs : List (LinkDef × LinkStatus)}, (l, LinkStatus.false) :: rs <:+ pairs ls → (l, .true) ∈ rs := by
  intro ls
  induction ls with
  | nil => intro l rs h; have := h.length_le; simp [pairs] at this
  | cons x ls ih =>
    intro l rs h
    have h : (l, LinkStatus.false) :: rs <:+ (x, .false) :: (x, .true) :: pairs ls := h
    rw [List.suffix_cons_iff] at h
    rcases h with e | h
    · cases e; exact List.mem_cons_self ..
    · rw [List.suffix_cons_iff] at h
      rcases h with e | h
      · cases e
      · exact ih h

theorem Form.next {l : LinkDef} {rs : List (LinkDef × LinkStatus)} (h : Form d ((l, .false) :: rs)) : (l, LinkStatus.true) ∈ rs := by
  obtain ⟨k, h⟩ := h
  exact pairs_next h

theorem Form.value {r : LinkDef × LinkStatus} {rs : List (LinkDef × LinkStatus)} (h : Form d rs) (hr : r ∈ rs) : r.1 ∈ d.main.links ∧ (r.2 = .false ∨ r.2 = .true) := by
  obtain ⟨k, h⟩ := h
  have h1 := mem_pairs.1 (h.subset hr)
  exact ⟨(mem_toLinks h1.1).1, h1.2⟩

/-! ### How often a link is going to be followed -/

def isTrue (l : LinkDef) (r : LinkDef × LinkStatus) : Bool := decide (r.1.id = l.id ∧ r.2 = .true)

def trues (l : LinkDef) (rs : List (LinkDef × LinkStatus)) : Nat := rs.countP (isTrue l)

def frTrue (l : LinkDef) : Fr → Nat
  | .rows _ rs => trues l rs
  | _ => 0

def linkTok (I : Inst) (l : LinkDef) : Nat := if I.linkSt l.id = .true then 1 else 0

def TrueOK (d : Def) (s : St) : Prop :=
  ∀ l ∈ d.main.links, ∀ n, sumTo (fun h => wSum (frTrue l) (s.gs h)) n + linkTok s.inst l ≤ timesEnded s.inst.trace l.src

theorem trues_pairs (l : LinkDef) (ls : List LinkDef) : trues l (pairs ls) = ls.countP (fun x => decide (x.id = l.id)) := by
  induction ls with
  | nil => rfl
  | cons x ls ih =>
    show trues l ((x, .false) :: (x, .true) :: pairs ls) = _
    unfold trues at ih ⊢
    rw [List.countP_cons, List.countP_cons, List.countP_cons, ih]
    simp [isTrue]

theorem count_le {ls : List LinkDef} (h : (ls.map (·.id)).Nodup) (i : LinkId) : ls.countP (fun x => decide (x.id = i)) ≤ 1 := by
  induction ls with
  | nil => simp
  | cons x ls ih =>
    rw [List.map_cons, List.nodup_cons] at h
    rw [List.countP_cons]
    by_cases e : x.id = i
    · have : ls.countP (fun x => decide (x.id = i)) = 0 := by
        rw [List.countP_eq_zero]
        intro y hy hc
        have hc : y.id = i := by simpa using hc
        exact h.1 (List.mem_map.2 ⟨y, hy, hc.trans e.symm⟩)
      rw [this]; simp [e]
    · have := ih h.2
      simp [e]; omega

theorem trues_ended (wf : (d.main.links.map (·.id)).Nodup) {l : LinkDef} (hl : l ∈ d.main.links) {t : TaskRef} (ht : t.eh = false) :
    trues l (pairs (d.toLinks t)) ≤ if t.id = l.src then 1 else 0 := by
  rw [trues_pairs]
  split
  · refine Nat.le_trans (List.Sublist.countP_le ?_) (count_le wf l.id)
    unfold Def.toLinks
    rw [ht]
    exact List.filter_sublist
  · rename_i e
    rw [Nat.le_zero, List.countP_eq_zero]
    intro x hx hc
    have hc : x.id = l.id := by simpa using hc
    have h1 := mem_toLinks hx
    rw [ht] at h1
    have : x = l := same_link (gr := d.main) wf h1.1 hl hc
    subst this
    exact e h1.2.symm

theorem linkTok_calm {I J : Inst} {a b : TaskId → Nat} (h : Calm I J a b) (l : LinkDef) : linkTok J l = linkTok I l := by
  unfold linkTok; rw [h.links]

theorem trues_cons (l : LinkDef) (r : LinkDef × LinkStatus) (rs : List (LinkDef × LinkStatus)) :
    trues l (r :: rs) = trues l rs + if r.1.id = l.id ∧ r.2 = .true then 1 else 0 := by
  unfold trues
  rw [List.countP_cons]
  simp [isTrue]

theorem TrueOK.init (d : Def) (uri : String) : TrueOK d (init d uri) := by
  intro l _ n
  have h1 : ∀ h, wSum (frTrue l) ((Conc.init d uri).gs h) = 0 := by
    intro h
    show wSum _ (if h = 0 then [Fr.lock (Inst.startEntries d false)] else []) = 0
    split <;> rfl
  have h2 : sumTo (fun h => wSum (frTrue l) ((Conc.init d uri).gs h)) n = 0 := by
    induction n with
    | zero => rfl
    | succ n ih => unfold sumTo; rw [ih, h1]
  rw [h2]
  exact Nat.zero_le _

/-- All tasks of the main flow have only such links. -/
theorem plain_of (ap : Plain d.main.links) {t : TaskRef} (ht : t.eh = false) : Plain (d.toLinks t) := by
  intro l hl
  have := mem_toLinks hl
  rw [ht] at this
  exact ap l this.1

/-- The step skips a task. -/
def Skips (d : Def) (s : St) (g : Nat) : Prop :=
  ∃ o es rest ob, s.gs g = .test o es :: rest ∧ s.inst.objs[o]? = some ob ∧ (∀ l ∈ d.fromLinks ob.task, s.inst.linkSt l.id ≠ .unset) ∧
    d.fromLinks ob.task ≠ [] ∧ ∀ l ∈ d.fromLinks ob.task, s.inst.linkSt l.id ≠ .true

theorem TrueOK.step (ap : Plain d.main.links) (wf : (d.main.links.map (·.id)).Nodup) (he : EhOK s) (m : Move d s g s') (hn : ¬ Skips d s g)
    (ok : TrueOK d s) : TrueOK d s' := by
  intro l hl
  have hw : ∀ h f, f ∈ s.gs h → frTrue l f = frTrue l f := fun _ _ _ => rfl
  have x := ends_mono m.ext l.src
  cases m with
  | pop o q hq' hg => refine tally (s := s) (g := g) rfl hw (ok l hl) ?_; rw [hg]; exact Nat.le_refl _
  | over o rest hg =>
    refine tally (s := s) (g := g) rfl hw (ok l hl) ?_
    rw [hg]; simp only [wSum_cons, frTrue, St.goto]; omega
  | wait o rest J hg h =>
    refine tally (s := s) (g := g) rfl hw (ok l hl) ?_
    have := linkTok_calm h l
    rw [hg]; simp only [wSum_cons, frTrue, St.goto] at x ⊢; omega
  | again o rest lg hg =>
    refine tally (s := s) (g := g) rfl hw (ok l hl) ?_
    rw [hg]; simp only [wSum_cons, frTrue, St.goto]; omega
  | ended o ob rest fs J hg ho h hf hp =>
    refine tally (s := s) (g := g) rfl hw (ok l hl) ?_
    have h1 := linkTok_calm h l
    have h2 := h.ended l.src
    rw [objTok_one ho] at h2
    have hb := he.objs o ob ho
    have h3 := trues_ended wf hl hb
    rw [hg]
    rcases hp (plain_of ap hb) with ⟨n, es, e, _⟩ | e
    · subst e
      simp only [wSum_cons, frTrue, St.goto] at x ⊢
      omega
    · subst e
      simp only [wSum_cons, frTrue, St.goto] at x ⊢
      omega
  | rowsEnd gen rest hg =>
    refine tally (s := s) (g := g) rfl hw (ok l hl) ?_
    rw [hg]; simp only [wSum_cons, frTrue, St.goto]; omega
  | row gen r rs rest hg h ht =>
    refine tally (s := s) (g := g) rfl hw (ok l hl) ?_
    rw [hg]
    have h1 := h.ended l.src
    have h2 : linkTok (setPtr s gen r) l ≤ linkTok s.inst l + if r.1.id = l.id ∧ r.2 = .true then 1 else 0 := by
      unfold linkTok setPtr
      split
      · show (if ((s.inst.links.set r.1.id r.2).get? l.id).getD .unset = .true then 1 else 0) ≤ _
        by_cases e : r.1.id = l.id
        · rw [e, AMap.get?_set_self]
          by_cases e2 : r.2 = .true
          · simp [e2]
          · simp [e2]
        · rw [AMap.get?_set_ne _ _ e, if_neg (c := r.1.id = l.id ∧ r.2 = .true) (fun hc => e hc.1)]
          exact Nat.le_refl _
      · omega
    simp only [wSum_cons, frTrue, St.goto, trues_cons] at x ⊢
    omega
  | complete t n es rest J hg h =>
    refine tally (s := s) (g := g) rfl hw (ok l hl) ?_
    have := linkTok_calm h l
    rw [hg]; simp only [wSum_cons, frTrue, St.goto] at x ⊢; omega
  | proceed t n es rest hg =>
    refine tally (s := s) (g := g) rfl hw (ok l hl) ?_
    rw [hg]; simp only [wSum_cons, frTrue, St.goto]; omega
  | fail rest J hg h =>
    refine tally (s := s) (g := g) rfl hw (ok l hl) ?_
    have := linkTok_calm h l
    rw [hg]; simp only [wSum_cons, frTrue, St.goto] at x ⊢; omega
  | lock es rest hg hl' =>
    refine tally (s := s) (g := g) rfl hw (ok l hl) ?_
    rw [hg]; simp only [wSum_cons, frTrue, St.goto]; omega
  | unlock rest hg =>
    refine tally (s := s) (g := g) rfl hw (ok l hl) ?_
    rw [hg]; simp only [wSum_cons, frTrue, St.goto]; omega
  | known y ys rest hg hs =>
    refine tally (s := s) (g := g) rfl hw (ok l hl) ?_
    have h1 : linkTok (s.inst.findOrCreateTask y.task).1 l = linkTok s.inst l := by unfold linkTok; rw [create_links]
    rw [hg]; simp only [wSum_cons, frTrue, St.goto] at x ⊢; omega
  | create y ys rest hg hs =>
    refine tally (s := s) (g := g) rfl hw (ok l hl) ?_
    have h1 : linkTok (s.inst.findOrCreateTask y.task).1 l = linkTok s.inst l := by unfold linkTok; rw [create_links]
    rw [hg]; simp only [wSum_cons, frTrue, St.goto] at x ⊢; omega
  | notReady o ob es rest J hg ho h =>
    refine tally (s := s) (g := g) rfl hw (ok l hl) ?_
    have := linkTok_calm h l
    rw [hg]; simp only [wSum_cons, frTrue, St.goto] at x ⊢; omega
  | ready o ob es rest J hg ho h =>
    refine tally (s := s) (g := g) rfl hw (ok l hl) ?_
    have := linkTok_calm h l
    rw [hg]; simp only [wSum_cons, frTrue, St.goto] at x ⊢; omega
  | skip o ob es es' n rs rest J hg ho h hr he' hd hc hx => exact absurd ⟨o, es, rest, ob, hg, ho, hd, hx.1, hx.2⟩ hn
  | push o es rest hg =>
    refine tally (s := s) (g := g) rfl hw (ok l hl) ?_
    rw [hg]; simp only [wSum_cons, frTrue, St.goto, pushStep]; omega
  | release t rest hg =>
    refine tally (s := s) (g := g) rfl hw (ok l hl) ?_
    have h1 : linkTok (s.inst.release t) l ≤ linkTok s.inst l := by
      unfold linkTok
      rw [(release_facts s.inst t).2.2.2 l.id]
      split <;> simp
    rw [hg]; simp only [wSum_cons, frTrue, St.goto, releaseStep] at x ⊢; omega

/-! ### Why tasks are entered -/

theorem Is.back {I J : Inst} {k : TaskId} {o : Nat} (h : Is J k o) (x : Ext I J) (ho : o < I.objs.length) : Is I k o := by
  obtain ⟨ob, h1, h2⟩ := h
  have h3 : I.objs[o]? = some I.objs[o] := List.getElem?_eq_getElem ho
  obtain ⟨ob', h4, h5⟩ := x.objs o _ h3
  rw [h1] at h4; cases h4
  exact ⟨_, h3, by rw [← h5]; exact h2⟩

theorem Carry.back {I J : Inst} {k : TaskId} {f : Fr} (h : Carry J k f) (x : Ext I J) (ho : ∀ o, objOf f = some o → o < I.objs.length) : Carry I k f := by
  cases f with
  | test o es =>
    rcases h with h | h
    · exact .inl h
    · exact .inr (h.back x (ho o rfl))
  | _ => exact h

/-- The frames of the goroutine after a step that skips no task: what they carry was carried before, or a task ended. -/
theorem Move.carry (ap : Plain d.main.links) (ht : TrOK d s) (he : EhOK s) (m : Move d s g s') (hn : ¬ Skips d s g) :
    ∃ new tl, s'.gs g = new ++ tl ∧ ((s.gs g = [] ∧ tl = [] ∧ ∀ f ∈ new, ∀ k, ¬ Carry s'.inst k f) ∨ ∃ top, s.gs g = top :: tl ∧
      ((∀ f ∈ new, ∀ k, Carry s'.inst k f → Carry s.inst k top) ∨
       ∃ t n es, new = [.rows s.gen (pairs (d.toLinks t)), .finish t n es] ∧ Toward d t es ∧ t.eh = false ∧ s'.gen = s.gen)) := by
  have self : ∀ (S : St) (fs : List Fr), (S.goto g fs).gs g = fs := fun S fs => if_pos rfl
  have x := m.ext
  have one : ∀ {f0 top : Fr}, (∀ k, Carry s'.inst k f0 → Carry s.inst k top) → ∀ f ∈ [f0], ∀ k, Carry s'.inst k f → Carry s.inst k top := by
    intro f0 top h f hf
    rw [List.mem_singleton.1 hf]; exact h
  cases m with
  | pop o q hq hg =>
    refine ⟨[.run o], [], self _ _, .inl ⟨hg, rfl, fun f hf k hc => ?_⟩⟩
    rw [List.mem_singleton.1 hf] at hc; exact hc
  | over o rest hg => exact ⟨[], rest, self _ _, .inr ⟨_, hg, .inl (fun f hf => nomatch hf)⟩⟩
  | wait o rest J hg h => exact ⟨[], rest, self _ _, .inr ⟨_, hg, .inl (fun f hf => nomatch hf)⟩⟩
  | again o rest lg hg => exact ⟨[], rest, self _ _, .inr ⟨_, hg, .inl (fun f hf => nomatch hf)⟩⟩
  | ended o ob rest fs J hg hob h hf hp =>
    have hb := he.objs o ob hob
    rcases hp (plain_of ap hb) with ⟨n, es, e, _⟩ | e
    · subst e
      have htw : Toward d ob.task es := by cases hf with | done _ h2 _ => exact h2
      exact ⟨[_, _], rest, self _ _, .inr ⟨_, hg, .inr ⟨ob.task, n, es, rfl, htw, hb, rfl⟩⟩⟩
    · subst e
      exact ⟨[.fail], rest, self _ _, .inr ⟨_, hg, .inl (one fun k hc => hc.elim)⟩⟩
  | rowsEnd gen rest hg => exact ⟨[], rest, self _ _, .inr ⟨_, hg, .inl (fun f hf => nomatch hf)⟩⟩
  | row gen r rs rest hg h htk => exact ⟨[.rows gen rs], rest, self _ _, .inr ⟨_, hg, .inl (one fun k hc => hc.elim)⟩⟩
  | complete t n es rest J hg h => exact ⟨[.release t], rest, self _ _, .inr ⟨_, hg, .inl (one fun k hc => hc.elim)⟩⟩
  | proceed t n es rest hg =>
    refine ⟨[.lock es, .release t], rest, self _ _, .inr ⟨_, hg, .inl fun f hf k hc => ?_⟩⟩
    simp only [List.mem_cons, List.not_mem_nil, or_false] at hf
    rcases hf with e | e
    · subst e; exact hc
    · subst e; exact hc.elim
  | fail rest J hg h => exact ⟨[], rest, self _ _, .inr ⟨_, hg, .inl (fun f hf => nomatch hf)⟩⟩
  | lock es rest hg hl => exact ⟨[.enter es], rest, self _ _, .inr ⟨_, hg, .inl (one fun k hc => hc)⟩⟩
  | unlock rest hg => exact ⟨[], rest, self _ _, .inr ⟨_, hg, .inl (fun f hf => nomatch hf)⟩⟩
  | known y ys rest hg hs =>
    exact ⟨[.enter ys], rest, self _ _, .inr ⟨_, hg, .inl (one fun k ⟨z, hz, e⟩ => ⟨z, List.mem_cons_of_mem _ hz, e⟩)⟩⟩
  | create y ys rest hg hs =>
    refine ⟨[.test _ ys], rest, self _ _, .inr ⟨_, hg, .inl (one fun k hc => ?_)⟩⟩
    rcases hc with ⟨z, hz, e⟩ | ⟨ob, h1, h2⟩
    · exact ⟨z, List.mem_cons_of_mem _ hz, e⟩
    · obtain ⟨ob', h3, h4⟩ := found ht.ok y
      rw [show (St.goto _ _ _).inst.objs[_]? = some ob' from h3] at h1; cases h1
      exact ⟨y, List.mem_cons_self .., h4.symm.trans h2⟩
  | notReady o ob es rest J hg hob h => exact ⟨[.enter es], rest, self _ _, .inr ⟨_, hg, .inl (one fun k hc => .inl hc)⟩⟩
  | ready o ob es rest J hg hob h => exact ⟨[.push o es], rest, self _ _, .inr ⟨_, hg, .inl (one fun k hc => .inl hc)⟩⟩
  | skip o ob es es' n rs rest J hg hob h hr he' hd hc hx => exact absurd ⟨o, es, rest, ob, hg, hob, hd, hx.1, hx.2⟩ hn
  | push o es rest hg => exact ⟨[.enter es], rest, self _ _, .inr ⟨_, hg, .inl (one fun k hc => hc)⟩⟩
  | release t rest hg => exact ⟨[], rest, self _ _, .inr ⟨_, hg, .inl (fun f hf => nomatch hf)⟩⟩

/-- One of the frames is going to set the link to followed. -/
def Pending (s : St) (l : LinkDef) (fs : List Fr) : Prop := ∃ gen rs, .rows gen rs ∈ fs ∧ (l, LinkStatus.true) ∈ rs ∧ gen l.id = s.gen l.id

/-- The task began, or a link to it is followed or is going to be before the goroutine comes to enter the task. -/
def Backed (d : Def) (s : St) (k : TaskId) (pre : List Fr) : Prop :=
  into d k ≠ [] → 1 ≤ timesBegun s.inst.trace k ∨ ∃ l ∈ into d k, s.inst.linkSt l.id = .true ∨ Pending s l pre

structure PlainOK (d : Def) (s : St) : Prop where
  form : ∀ h gen rs, .rows gen rs ∈ s.gs h → Form d rs
  count : TrueOK d s
  backed : ∀ h pre f post k, s.gs h = pre ++ f :: post → Carry s.inst k f → Backed d s k pre

theorem PlainOK.init (d : Def) (uri : String) : PlainOK d (init d uri) := by
  refine ⟨fun h gen rs hf => ?_, TrueOK.init d uri, fun h pre f post k hg hc => ?_⟩
  · have hf : Fr.rows gen rs ∈ (if h = 0 then [Fr.lock (Inst.startEntries d false)] else []) := hf
    split at hf
    · simp at hf
    · cases hf
  · have hg : (if h = 0 then [Fr.lock (Inst.startEntries d false)] else []) = pre ++ f :: post := hg
    split at hg
    · have hf : f ∈ [Fr.lock (Inst.startEntries d false)] := by rw [hg]; simp
      rw [List.mem_singleton.1 hf] at hc
      obtain ⟨y, hy, e⟩ := hc
      obtain ⟨t, ht, e'⟩ := List.mem_map.1 hy
      subst e'
      have h1 := (List.mem_filter.1 ht).2
      intro hne
      refine absurd ?_ hne
      have e : t.id = k := e
      rw [← e]
      have h1 : (d.fromLinks ⟨false, t.id⟩).length = 0 := by simpa using h1
      exact List.eq_nil_of_length_eq_zero h1
    · have : (pre ++ f :: post).length = 0 := by rw [← hg]; rfl
      simp at this

/-- No step skips a task. -/
theorem PlainOK.noSkip (ok : PlainOK d s) (wf : WellFormed d.main) (bo : BeginOK d s) : ¬ Skips d s g := by
  rintro ⟨o, es, rest, ob, hg, ho, hd, hne, hx⟩
  have hb := bo.eh.objs o ob ho
  have htask : ob.task = ⟨false, ob.task.id⟩ := by
    cases hob : ob.task with
    | mk b i =>
      rw [hob] at hb
      cases hb; rfl
  have hf := bo.join.first wf.tasks bo.ent bo.eh (g := g) (k := ob.task.id) ⟨o, es, rest, ob, hg, ho, rfl, hd⟩
  rw [htask] at hne hx
  rcases ok.backed g [] _ rest ob.task.id hg (.inr ⟨ob, ho, rfl⟩) hne with h1 | ⟨l, hl, h1 | ⟨_, _, h1, _⟩⟩
  · omega
  · exact hx l hl h1
  · cases h1

/-- A followed link whose target has not begun stays followed. -/
theorem PlainOK.stays (ok : PlainOK d s) (wf : WellFormed d.main) (ht : TrOK d s) (bo : BeginOK d s) (m : Move d s g s') {l : LinkDef}
    (hl : l ∈ d.main.links) (hb : timesBegun s.inst.trace l.dst = 0) (h : s.inst.linkSt l.id = .true) : s'.inst.linkSt l.id = .true := by
  cases m with
  | pop | over | again | rowsEnd | proceed | lock | unlock | push => exact h
  | wait _ _ _ _ c => exact (c.links l.id).trans h
  | ended _ _ _ _ _ _ _ c => exact (c.links l.id).trans h
  | row gen r rs rest hg =>
    show (setPtr s gen r).linkSt l.id = .true
    unfold setPtr
    split
    · show ((s.inst.links.set r.1.id r.2).get? l.id).getD .unset = _
      by_cases e : r.1.id = l.id
      · have hf : Fr.rows gen (r :: rs) ∈ s.gs g := by rw [hg]; exact List.mem_cons_self ..
        have hform := ok.form g gen _ hf
        have hv := hform.value (List.mem_cons_self ..)
        have el : r.1 = l := same_link (gr := d.main) wf.links hv.1 hl e
        rcases hv.2 with h2 | h2
        · have er : r = (l, .false) := by obtain ⟨a, b⟩ := r; cases el; cases h2; rfl
          subst er
          have h3 := hform.next
          have h4 := frame_le (w := frTrue l) (B := timesEnded s.inst.trace l.src) (A := linkTok s.inst l) (ok.count l hl) g hg
          have h5 : 1 ≤ trues l rs := List.countP_pos_iff.2 ⟨_, h3, by simp [isTrue]⟩
          have h6 : linkTok s.inst l = 1 := if_pos h
          have h7 := bo.act.ended_le l.src
          have h8 := bo.join.once l.src
          have h9 : frTrue l (.rows gen ((l, .false) :: rs)) = trues l ((l, .false) :: rs) := rfl
          rw [trues_cons] at h9
          omega
        · rw [e, AMap.get?_set_self, h2]; rfl
      · rw [AMap.get?_set_ne _ _ e]; exact h
    · exact h
  | complete _ _ _ _ _ _ c => exact (c.links l.id).trans h
  | fail _ _ _ c => exact (c.links l.id).trans h
  | known x => exact (create_links ..).trans h
  | create x => exact (create_links ..).trans h
  | notReady _ _ _ _ _ _ _ c => exact (c.links l.id).trans h
  | ready _ _ _ _ _ _ _ c => exact (c.links l.id).trans h
  | skip _ _ _ _ _ _ _ _ _ _ c => exact (c.links l.id).trans h
  | release t rest hg =>
    have h' := (release_facts s.inst t).2.2.2 l.id
    rw [if_neg (not_released bo.eh ht bo.join wf.links hl hb hg)] at h'
    exact h'.trans h

/-- What is going to be set stays so, or was set. -/
theorem Pending.step (m : Move d s g s') {l : LinkDef} {top : Fr} {tl : List Fr} (hg : s.gs g = top :: tl) (h : Pending s l [top]) :
    s'.inst.linkSt l.id = .true ∨ ∃ new, s'.gs g = new ++ tl ∧ Pending s' l new := by
  obtain ⟨gen, rs, hm, hr, hgen⟩ := h
  have e := List.mem_singleton.1 hm
  subst e
  have self : ∀ (S : St) (fs : List Fr), (S.goto g fs).gs g = fs := fun S fs => if_pos rfl
  cases m with
  | row gen' r' rs' rest' hg' h1 h2 =>
    rw [hg] at hg'; cases hg'
    rcases List.mem_cons.1 hr with er | hr
    · subst er
      left
      show (setPtr s gen (l, .true)).linkSt l.id = .true
      unfold setPtr
      rw [if_pos hgen]
      show ((s.inst.links.set l.id .true).get? l.id).getD .unset = _
      rw [AMap.get?_set_self]; rfl
    · exact .inr ⟨[.rows gen rs'], self _ _, gen, rs', List.mem_singleton.2 rfl, hr, hgen⟩
  | rowsEnd gen' rest' hg' => rw [hg] at hg'; cases hg'; cases hr
  | pop o q hq hg' => rw [hg] at hg'; cases hg'
  | over o rest' hg' => rw [hg] at hg'; cases hg'
  | wait o rest' J hg' => rw [hg] at hg'; cases hg'
  | again o rest' lg hg' => rw [hg] at hg'; cases hg'
  | ended o ob rest' fs J hg' => rw [hg] at hg'; cases hg'
  | complete t n es rest' J hg' => rw [hg] at hg'; cases hg'
  | proceed t n es rest' hg' => rw [hg] at hg'; cases hg'
  | fail rest' J hg' => rw [hg] at hg'; cases hg'
  | lock es rest' hg' => rw [hg] at hg'; cases hg'
  | unlock rest' hg' => rw [hg] at hg'; cases hg'
  | known y ys rest' hg' => rw [hg] at hg'; cases hg'
  | create y ys rest' hg' => rw [hg] at hg'; cases hg'
  | notReady o ob es rest' J hg' => rw [hg] at hg'; cases hg'
  | ready o ob es rest' J hg' => rw [hg] at hg'; cases hg'
  | skip o ob es es' n rs rest' J hg' => rw [hg] at hg'; cases hg'
  | push o es rest' hg' => rw [hg] at hg'; cases hg'
  | release t rest' hg' => rw [hg] at hg'; cases hg'

theorem PlainOK.step (ok : PlainOK d s) (ap : Plain d.main.links) (wf : WellFormed d.main) (ht : TrOK d s) (ho : ObjsOK s) (bo : BeginOK d s)
    (m : Move d s g s') : PlainOK d s' := by
  have hn : ¬ Skips d s g := ok.noSkip wf bo
  have x := m.ext
  have mono : ∀ {k : TaskId} {pre pre' : List Fr}, Backed d s k pre →
      (∀ l ∈ into d k, timesBegun s.inst.trace l.dst = 0 → Pending s l pre → s'.inst.linkSt l.id = .true ∨ Pending s' l pre') → Backed d s' k pre' := by
    intro k pre pre' h hp hne
    rcases h hne with h1 | ⟨l, hl, h1⟩
    · exact .inl (Nat.le_trans h1 (begun_mono x k))
    · rcases Nat.eq_zero_or_pos (timesBegun s.inst.trace k) with hb | hb
      · have h2 := mem_fromLinks.1 hl
        have hb' : timesBegun s.inst.trace l.dst = 0 := by rw [show l.dst = k from h2.2]; exact hb
        refine .inr ⟨l, hl, ?_⟩
        rcases h1 with h1 | h1
        · exact .inl (ok.stays wf ht bo m h2.1 hb' h1)
        · exact hp l hl hb' h1
      · exact .inl (Nat.le_trans hb (begun_mono x k))
  have gens : ∀ {l : LinkDef} {k : TaskId}, l ∈ into d k → timesBegun s.inst.trace l.dst = 0 → ∀ {fs fs' : List Fr}, (∀ f ∈ fs, f ∈ fs') →
      Pending s l fs → Pending s' l fs' := by
    rintro l k hl hb fs fs' hs ⟨gen, rs, h1, h2, h3⟩
    exact ⟨gen, rs, hs _ h1, h2, h3.trans (gen_same m bo.eh ht bo.join wf.links (mem_fromLinks.1 hl).1 hb).symm⟩
  refine ⟨fun h gen rs hf => ?_, ok.count.step ap wf.links bo.eh m hn, fun h pre f post k hg hc => ?_⟩
  · by_cases eh : h = g
    · subst eh
      cases m with
      | ended o ob rest fs J hg hob hcl hf' hp =>
        have hb := bo.eh.objs o ob hob
        rw [show (St.goto _ h fs).gs h = fs from if_pos rfl] at hf
        have old : .rows gen rs ∈ rest → Form d rs := fun hm => ok.form h gen rs (by rw [hg]; exact List.mem_cons_of_mem _ hm)
        rcases hp (plain_of ap hb) with ⟨n, es, e, _⟩ | e
        · subst e
          simp only [List.mem_cons] at hf
          rcases hf with e | e | hm
          · cases e
            refine ⟨ob.task.id, ?_⟩
            have : ob.task = ⟨false, ob.task.id⟩ := by
              cases hob' : ob.task with
              | mk b i => rw [hob'] at hb; cases hb; rfl
            rw [← this]; exact List.suffix_refl _
          · cases e
          · exact old hm
        · subst e
          simp only [List.mem_cons] at hf
          rcases hf with e | hm
          · cases e
          · exact old hm
      | row gen' r rs' rest hg hef htk =>
        rw [show (St.goto _ h _).gs h = _ from if_pos rfl] at hf
        rcases List.mem_cons.1 hf with e | hm
        · cases e
          exact (ok.form h gen (r :: rs) (by rw [hg]; exact List.mem_cons_self ..)).cons
        · exact ok.form h gen rs (by rw [hg]; exact List.mem_cons_of_mem _ hm)
      | skip o ob es es' n rs' rest J hg hob hcl hr he' hd hcv hx => exact absurd ⟨o, es, rest, ob, hg, hob, hd, hx.1, hx.2⟩ hn
      | pop o q hq hg =>
        rw [show (St.goto _ h _).gs h = _ from if_pos rfl] at hf
        simp at hf
      | over o rest hg =>
        rw [show (St.goto _ h _).gs h = _ from if_pos rfl] at hf
        exact ok.form h gen rs (by rw [hg]; exact List.mem_cons_of_mem _ hf)
      | wait o rest J hg =>
        rw [show (St.goto _ h _).gs h = _ from if_pos rfl] at hf
        exact ok.form h gen rs (by rw [hg]; exact List.mem_cons_of_mem _ hf)
      | again o rest lg hg =>
        rw [show (St.goto _ h _).gs h = _ from if_pos rfl] at hf
        exact ok.form h gen rs (by rw [hg]; exact List.mem_cons_of_mem _ hf)
      | rowsEnd gen' rest hg =>
        rw [show (St.goto _ h _).gs h = _ from if_pos rfl] at hf
        exact ok.form h gen rs (by rw [hg]; exact List.mem_cons_of_mem _ hf)
      | complete t n es rest J hg =>
        rw [show (St.goto _ h _).gs h = _ from if_pos rfl] at hf
        rcases List.mem_cons.1 hf with e | hm
        · cases e
        · exact ok.form h gen rs (by rw [hg]; exact List.mem_cons_of_mem _ hm)
      | proceed t n es rest hg =>
        rw [show (St.goto _ h _).gs h = _ from if_pos rfl] at hf
        simp only [List.mem_cons] at hf
        rcases hf with e | e | hm
        · cases e
        · cases e
        · exact ok.form h gen rs (by rw [hg]; exact List.mem_cons_of_mem _ hm)
      | fail rest J hg =>
        rw [show (St.goto _ h _).gs h = _ from if_pos rfl] at hf
        exact ok.form h gen rs (by rw [hg]; exact List.mem_cons_of_mem _ hf)
      | lock es rest hg hl =>
        have hf : Fr.rows gen rs ∈ (if h = h then .enter es :: rest else s.gs h) := hf
        rw [if_pos rfl] at hf
        rcases List.mem_cons.1 hf with e | hm
        · cases e
        · exact ok.form h gen rs (by rw [hg]; exact List.mem_cons_of_mem _ hm)
      | unlock rest hg =>
        have hf : Fr.rows gen rs ∈ (if h = h then rest else s.gs h) := hf
        rw [if_pos rfl] at hf
        exact ok.form h gen rs (by rw [hg]; exact List.mem_cons_of_mem _ hf)
      | known y ys rest hg =>
        rw [show (St.goto _ h _).gs h = _ from if_pos rfl] at hf
        rcases List.mem_cons.1 hf with e | hm
        · cases e
        · exact ok.form h gen rs (by rw [hg]; exact List.mem_cons_of_mem _ hm)
      | create y ys rest hg =>
        rw [show (St.goto _ h _).gs h = _ from if_pos rfl] at hf
        rcases List.mem_cons.1 hf with e | hm
        · cases e
        · exact ok.form h gen rs (by rw [hg]; exact List.mem_cons_of_mem _ hm)
      | notReady o ob es rest J hg =>
        rw [show (St.goto _ h _).gs h = _ from if_pos rfl] at hf
        rcases List.mem_cons.1 hf with e | hm
        · cases e
        · exact ok.form h gen rs (by rw [hg]; exact List.mem_cons_of_mem _ hm)
      | ready o ob es rest J hg =>
        rw [show (St.goto _ h _).gs h = _ from if_pos rfl] at hf
        rcases List.mem_cons.1 hf with e | hm
        · cases e
        · exact ok.form h gen rs (by rw [hg]; exact List.mem_cons_of_mem _ hm)
      | push o es rest hg =>
        have hf : Fr.rows gen rs ∈ (if h = h then .enter es :: rest else s.gs h) := hf
        rw [if_pos rfl] at hf
        rcases List.mem_cons.1 hf with e | hm
        · cases e
        · exact ok.form h gen rs (by rw [hg]; exact List.mem_cons_of_mem _ hm)
      | release t rest hg =>
        rw [show (St.goto _ h _).gs h = _ from if_pos rfl] at hf
        exact ok.form h gen rs (by rw [hg]; exact List.mem_cons_of_mem _ hf)
    · rw [m.others eh] at hf
      exact ok.form h gen rs hf
  · have hold : ∀ {h : Nat} {f : Fr}, f ∈ s.gs h → Carry s'.inst k f → Carry s.inst k f := fun hf hc => hc.back x fun o e => ho.frames _ _ o hf e
    by_cases eh : h = g
    · subst eh
      obtain ⟨new, tl, h1, h2⟩ := m.carry ap ht bo.eh hn
      -- a frame that was there before
      have below : ∀ {top : Fr} {mid : List Fr}, s.gs h = top :: tl → tl = mid ++ f :: post → pre = new ++ mid → Backed d s' k pre := by
        intro top mid hs e1 e2
        have hf : f ∈ s.gs h := by rw [hs, e1]; simp
        refine mono (ok.backed h (top :: mid) f post k (by rw [hs, e1]; rfl) (hold hf hc)) fun l hl hb hp => ?_
        obtain ⟨gen, rs, p1, p2, p3⟩ := hp
        rcases List.mem_cons.1 p1 with e | p1
        · rcases Pending.step m hs ⟨gen, rs, List.mem_singleton.2 e, p2, p3⟩ with h3 | ⟨new', h3, h4⟩
          · exact .inl h3
          · have : new' = new := List.append_cancel_right (h3.symm.trans h1)
            subst this
            obtain ⟨gen', rs', q1, q2, q3⟩ := h4
            exact .inr ⟨gen', rs', by rw [e2]; exact List.mem_append_left _ q1, q2, q3⟩
        · exact .inr (gens hl hb (fun f hf => by rw [e2]; exact List.mem_append_right _ hf) ⟨gen, rs, p1, p2, p3⟩)
      rw [h1] at hg
      -- where the frame is
      have place : (f ∈ new) ∨ ∃ mid, tl = mid ++ f :: post ∧ pre = new ++ mid := by
        rcases List.append_eq_append_iff.1 hg with ⟨as, e1, e2⟩ | ⟨bs, e1, e2⟩
        · exact .inr ⟨as, e2, e1⟩
        · cases bs with
          | nil => exact .inr ⟨[], e2.symm, by rw [List.append_nil] at e1; rw [e1, List.append_nil]⟩
          | cons b bs =>
            cases e2
            left; rw [e1]; simp
      rcases h2 with ⟨_, h4, h5⟩ | ⟨top, h4, h5⟩
      · rcases place with hp | ⟨mid, e1, _⟩
        · exact absurd hc (h5 f hp k)
        · rw [h4] at e1
          have : ([] : List Fr).length = (mid ++ f :: post).length := by rw [e1]
          simp at this
      · rcases place with hp | ⟨mid, e1, e2⟩
        · rcases h5 with h5 | ⟨t, n, es, e, htw, hte, hgs⟩
          · have := ok.backed h [] top tl k h4 (h5 f hp k hc)
            exact mono this fun l hl hb ⟨_, _, q, _⟩ => by cases q
          · subst e
            intro _
            simp only [List.mem_cons, List.not_mem_nil, or_false] at hp
            rcases hp with e | e
            · subst e; exact hc.elim
            · subst e
              obtain ⟨y, hy, ey⟩ := hc
              obtain ⟨l, hl, e⟩ := htw y hy
              have hlm := mem_toLinks hl
              rw [hte] at hlm
              have hlk : l ∈ into d k := mem_fromLinks.2 ⟨hlm.1, by rw [e] at ey; exact ey⟩
              refine .inr ⟨l, hlk, .inr ⟨s.gen, _, ?_, mem_pairs.2 ⟨hl, .inr rfl⟩, by rw [hgs]⟩⟩
              cases pre with
              | nil => cases hg
              | cons p pre =>
                have hg : Fr.rows s.gen (pairs (d.toLinks t)) :: (.finish t n es :: tl) = p :: (pre ++ .finish t n es :: post) := hg
                rw [(List.cons.inj hg).1]
                exact List.mem_cons_self ..
        · exact below h4 e1 e2
    · rw [m.others eh] at hg
      have hf : f ∈ s.gs h := by rw [hg]; simp
      exact mono (ok.backed h pre f post k hg (hold hf hc)) fun l hl hb hp => .inr (gens hl hb (fun _ h => h) hp)

theorem PlainOK.reach {prio : Bool} {uri : String} (ap : Plain d.main.links) (wf : WellFormed d.main) (h : Reach prio d uri s) (hn : NoHandler d s) : PlainOK d s := by
  induction h with
  | init => exact PlainOK.init d uri
  | @step s0 s1 l hr hs ih =>
    have ht := TrOK.reach hr
    obtain ⟨g, m⟩ := step_move ht hs hn
    have hn' : NoHandler d s0 := by
      rcases hn with h | h
      · left
        cases hx : s0.inst.handling with
        | false => rfl
        | true => rw [m.ext.handling hx] at h; cases h
      · exact .inr h
    exact (ih hn').step ap wf ht (ObjsOK.reach hr) (BeginOK.reach wf hr hn') m

/-! ### Skipped and failed tasks -/

theorem Eff.no_skipped {I J : Inst} {a b : TaskId → Nat} (e : Eff I J a b) (h : (∀ k, a k = 0) ∨ ∀ k, b k = 0) {o : Nat} {t : TaskRef}
    (hm : .taskStatus o t .skipped ∈ J.trace) : .taskStatus o t .skipped ∈ I.trace := by
  obtain ⟨evs, he⟩ := e.ext.trace
  rw [he] at hm
  rcases List.mem_append.1 hm with hm | hm
  · exfalso
    rcases h with h | h
    · have h1 := e.begun t.id
      rw [he, h] at h1
      have h2 : 0 < timesBegun evs t.id := List.countP_pos_iff.2 ⟨_, hm, by simp [beginsTask]⟩
      unfold timesBegun at h1 h2
      rw [List.countP_append] at h1
      omega
    · have h1 := e.ended t.id
      rw [he, h] at h1
      have h2 : 0 < timesEnded evs t.id := List.countP_pos_iff.2 ⟨_, hm, by simp [endsTask]⟩
      unfold timesEnded at h1 h2
      rw [List.countP_append] at h1
      omega
  · exact hm

theorem Eff.no_failed {I J : Inst} {a b : TaskId → Nat} (e : Eff I J a b) (h : ∀ k, b k = 0) {o : Nat} {t : TaskRef}
    (hm : .taskStatus o t .failed ∈ J.trace) : .taskStatus o t .failed ∈ I.trace := by
  obtain ⟨evs, he⟩ := e.ext.trace
  rw [he] at hm
  rcases List.mem_append.1 hm with hm | hm
  · exfalso
    have h1 := e.ended t.id
    rw [he, h] at h1
    have h2 : 0 < timesEnded evs t.id := List.countP_pos_iff.2 ⟨_, hm, by simp [endsTask]⟩
    unfold timesEnded at h1 h2
    rw [List.countP_append] at h1
    omega
  · exact hm

theorem Move.no_skipped (m : Move d s g s') (hn : ¬ Skips d s g) {o : Nat} {t : TaskRef} (hm : .taskStatus o t .skipped ∈ s'.inst.trace) :
    .taskStatus o t .skipped ∈ s.inst.trace := by
  cases m with
  | pop | over | again | rowsEnd | proceed | lock | unlock | push => exact hm
  | wait _ _ _ _ h => exact h.no_skipped (.inl fun _ => rfl) hm
  | ended _ _ _ _ _ _ _ h => exact h.no_skipped (.inl fun _ => rfl) hm
  | row _ _ _ _ _ h => exact h.no_skipped (.inl fun _ => rfl) hm
  | complete _ _ _ _ _ _ h => exact h.no_skipped (.inl fun _ => rfl) hm
  | fail _ _ _ h => exact h.no_skipped (.inl fun _ => rfl) hm
  | known y => exact create_events _ _ _ _ _ hm
  | create y => exact create_events _ _ _ _ _ hm
  | notReady _ _ _ _ _ _ _ h => exact h.no_skipped (.inl fun _ => rfl) hm
  | ready _ _ _ _ _ _ _ h => exact h.no_skipped (.inr fun _ => rfl) hm
  | skip o ob es es' n rs rest J hg ho h hr he' hd hc hx => exact absurd ⟨o, es, rest, ob, hg, ho, hd, hx.1, hx.2⟩ hn
  | release t' => exact (release_facts s.inst t').2.2.1 o t _ hm

theorem Move.no_failed (ap : Plain d.main.links) (he : EhOK s) (m : Move d s g s') (hn : ¬ Skips d s g) {o : Nat} {t : TaskRef}
    (hm : .taskStatus o t .failed ∈ s'.inst.trace) : .taskStatus o t .failed ∈ s.inst.trace ∨ .fail ∈ s'.gs g := by
  cases m with
  | pop | over | again | rowsEnd | proceed | lock | unlock | push => exact .inl hm
  | wait _ _ _ _ h => exact .inl (h.no_failed (fun _ => rfl) hm)
  | ended p ob rest fs J hg hob hcl hf' hp =>
    rcases hp (plain_of ap (he.objs p ob hob)) with ⟨n, es, e, h1⟩ | e
    · exact .inl (h1 o t hm)
    · right
      rw [show (St.goto _ g fs).gs g = fs from if_pos rfl, e]
      exact List.mem_cons_self ..
  | row _ _ _ _ _ h => exact .inl (h.no_failed (fun _ => rfl) hm)
  | complete _ _ _ _ _ _ h => exact .inl (h.no_failed (fun _ => rfl) hm)
  | fail _ _ _ h => exact .inl (h.no_failed (fun _ => rfl) hm)
  | known y => exact .inl (create_events _ _ _ _ _ hm)
  | create y => exact .inl (create_events _ _ _ _ _ hm)
  | notReady _ _ _ _ _ _ _ h => exact .inl (h.no_failed (fun _ => rfl) hm)
  | ready _ _ _ _ _ _ _ h => exact .inl (h.no_failed (fun _ => rfl) hm)
  | skip o ob es es' n rs rest J hg ho h hr he' hd hc hx => exact absurd ⟨o, es, rest, ob, hg, ho, hd, hx.1, hx.2⟩ hn
  | release t' => exact .inl ((release_facts s.inst t').2.2.1 o t _ hm)

theorem NoHandler.before {prio : Bool} {l : Label} (ht : TrOK d s) (hs : Conc.step prio s l = some s') (hn : NoHandler d s') : NoHandler d s := by
  rcases hn with h | h
  · left
    cases hx : s.inst.handling with
    | false => rfl
    | true => rw [(step_ext ht hs).handling hx] at h; cases h
  · exact .inr h

theorem no_skipped {prio : Bool} {uri : String} (ap : Plain d.main.links) (wf : WellFormed d.main) (h : Reach prio d uri s) (hn : NoHandler d s) :
    ∀ o t, .taskStatus o t .skipped ∉ s.inst.trace := by
  induction h with
  | init =>
    intro o t hm
    have hm : .taskStatus o t .skipped ∈ [Flow.Ev.flowStatus .active] := hm
    simp at hm
  | @step s0 s1 l hr hs ih =>
    have ht := TrOK.reach hr
    have hn' := hn.before ht hs
    obtain ⟨g, m⟩ := step_move ht hs hn
    intro o t hm
    exact ih hn' o t (m.no_skipped ((PlainOK.reach ap wf hr hn').noSkip wf (BeginOK.reach wf hr hn')) hm)

/-- A failed task fails the flow. -/
theorem failed_owed {prio : Bool} {uri : String} (ap : Plain d.main.links) (wf : WellFormed d.main) (h : Reach prio d uri s) (hn : s.inst.handling = false)
    {o : Nat} {t : TaskRef} (hm : .taskStatus o t .failed ∈ s.inst.trace) : ∃ g, .fail ∈ s.gs g := by
  induction h with
  | init =>
    have hm : .taskStatus o t .failed ∈ [Flow.Ev.flowStatus .active] := hm
    simp at hm
  | @step s0 s1 l hr hs ih =>
    have ht := TrOK.reach hr
    have hn' : s0.inst.handling = false := by
      cases hx : s0.inst.handling with
      | false => rfl
      | true => rw [(step_ext ht hs).handling hx] at hn; cases hn
    rcases step_case ht hs with ⟨g, rest, hg, e⟩ | ⟨g, m, hnf, _⟩
    · have : s1.inst.handling = true := by
        rw [e]
        unfold failStep
        split
        · assumption
        · split <;> rfl
      rw [this] at hn; cases hn
    · rcases m.no_failed ap (BeginOK.reach wf hr (.inl hn')).eh ((PlainOK.reach ap wf hr (.inl hn')).noSkip wf (BeginOK.reach wf hr (.inl hn'))) hm with h1 | h1
      · obtain ⟨g', h2⟩ := ih hn' h1
        rcases m.survive h2 with h3 | ⟨rest, _, h3⟩
        · exact ⟨g', h3⟩
        · exact absurd h3 (hnf rest)
      · exact ⟨g, h1⟩

end Flow.Conc
