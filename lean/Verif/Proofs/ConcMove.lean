import Verif.Proofs.ConcOnce

/-
Concurrent mode: the steps of a program whose error handler has not been started, with what they do to counts, links and
the task table.
-/

namespace Flow.Conc

open Flow Spec

/-! ### Begins -/

def isBeginStatus : TaskStatus → Bool
  | .ready => true
  | .skipped => true
  | _ => false

theorem begun_status (I : Inst) (k : TaskId) (o : Nat) (st : TaskStatus) :
    timesBegun (I.setTaskStatus o st).trace k = timesBegun I.trace k + if isBeginStatus st then objTok I k o else 0 := by
  unfold Inst.setTaskStatus objTok
  split
  · rename_i h; rw [h]; simp
  · rename_i ob h
    rw [h]
    unfold timesBegun
    rw [List.countP_cons]
    by_cases e : ob.task.id = k
    · cases st <;> simp [beginsTask, isBeginStatus, e]
    · cases st <;> simp [beginsTask, isBeginStatus, e]

theorem begun_findLinks (k : TaskId) (ls : List LinkDef) : ∀ I : Inst, timesBegun (I.findLinks ls).trace k = timesBegun I.trace k := by
  unfold Inst.findLinks
  induction ls with
  | nil => intro I; rfl
  | cons l ls ih =>
    intro I
    rw [List.foldl_cons, ih]
    unfold Inst.findLink
    split
    · rfl
    · unfold timesBegun; rw [List.countP_cons]; rfl

theorem begun_create (I : Inst) (k : TaskId) (t : TaskRef) : timesBegun (I.findOrCreateTask t).1.trace k = timesBegun I.trace k := by
  unfold Inst.findOrCreateTask
  split
  · rfl
  · unfold timesBegun; rw [List.countP_cons]; rfl

theorem begun_release (I : Inst) (k : TaskId) (t : TaskRef) : timesBegun (I.release t).trace k = timesBegun I.trace k := by
  unfold Inst.release
  have h0 : timesBegun ({ I with tasks := I.tasks.del t.id, trace := .taskRemoved t.id :: I.trace } : Inst).trace k = timesBegun I.trace k := by
    unfold timesBegun; rw [List.countP_cons]; rfl
  refine Eq.trans ?_ h0
  generalize ({ I with tasks := I.tasks.del t.id, trace := .taskRemoved t.id :: I.trace } : Inst) = J
  generalize I.defn.fromLinks t = ls
  induction ls generalizing J with
  | nil => rfl
  | cons l ls ih =>
    rw [List.foldl_cons, ih]
    unfold timesBegun; rw [List.countP_cons]; rfl

theorem begun_mono {I J : Inst} (x : Ext I J) (k : TaskId) : timesBegun I.trace k ≤ timesBegun J.trace k := by
  obtain ⟨evs, h⟩ := x.trace
  rw [h]
  unfold timesBegun
  rw [List.countP_append]; omega

/-! ### Effects on the instance -/

/-- What a step does to the instance: it adds `bg` begins and `en` ends; objects and events refer to the same tasks. -/
structure Eff (I J : Inst) (bg en : TaskId → Nat) : Prop where
  ext : Ext I J
  begun : ∀ k, timesBegun J.trace k = timesBegun I.trace k + bg k
  ended : ∀ k, timesEnded J.trace k = timesEnded I.trace k + en k
  objs : ∀ (o : Nat) ob', J.objs[o]? = some ob' → ∃ ob, I.objs[o]? = some ob ∧ ob.task = ob'.task
  events : ∀ o t st, .taskStatus o t st ∈ J.trace → .taskStatus o t st ∈ I.trace ∨ ∃ ob, I.objs[o]? = some ob ∧ ob.task = t

/-- Neither the table of tasks nor links change. -/
structure Calm (I J : Inst) (bg en : TaskId → Nat) : Prop extends Eff I J bg en where
  tasks : J.tasks = I.tasks
  links : ∀ l, J.linkSt l = I.linkSt l

abbrev zero : TaskId → Nat := fun _ => 0

theorem Eff.trans {I J K : Inst} {a b c d : TaskId → Nat} (h : Eff I J a b) (h' : Eff J K c d) :
    Eff I K (fun k => a k + c k) (fun k => b k + d k) := by
  refine ⟨h.ext.trans h'.ext, fun k => ?_, fun k => ?_, fun o ob' ho => ?_, fun o t st hm => ?_⟩
  · rw [h'.begun, h.begun]; omega
  · rw [h'.ended, h.ended]; omega
  · obtain ⟨ob, h1, h2⟩ := h'.objs o ob' ho
    obtain ⟨ob0, h3, h4⟩ := h.objs o ob h1
    exact ⟨ob0, h3, h4.trans h2⟩
  · rcases h'.events o t st hm with h1 | ⟨ob, h1, h2⟩
    · exact h.events o t st h1
    · obtain ⟨ob0, h3, h4⟩ := h.objs o ob h1
      exact .inr ⟨ob0, h3, h4.trans h2⟩

theorem Calm.trans {I J K : Inst} {a b c d : TaskId → Nat} (h : Calm I J a b) (h' : Calm J K c d) :
    Calm I K (fun k => a k + c k) (fun k => b k + d k) :=
  ⟨h.toEff.trans h'.toEff, h'.tasks.trans h.tasks, fun l => (h'.links l).trans (h.links l)⟩

theorem Calm.congr {I J : Inst} {a b a' b' : TaskId → Nat} (h : Calm I J a b) (h1 : ∀ k, a k = a' k) (h2 : ∀ k, b k = b' k) : Calm I J a' b' := by
  have e1 : a = a' := funext h1
  have e2 : b = b' := funext h2
  subst e1; subst e2
  exact h

theorem Calm.refl (I : Inst) : Calm I I zero zero :=
  ⟨⟨.refl _, fun _ => rfl, fun _ => rfl, fun _ ob h => ⟨ob, h, rfl⟩, fun _ _ _ h => .inl h⟩, rfl, fun _ => rfl⟩

theorem calm_findLinks (I : Inst) (ls : List LinkDef) : Calm I (I.findLinks ls) zero zero := by
  have key : ∀ (ls : List LinkDef) (I : Inst), (I.findLinks ls).tasks = I.tasks ∧ (I.findLinks ls).objs = I.objs ∧
      ∀ o t st, .taskStatus o t st ∈ (I.findLinks ls).trace → .taskStatus o t st ∈ I.trace := by
    intro ls
    unfold Inst.findLinks
    induction ls with
    | nil => intro I; exact ⟨rfl, rfl, fun _ _ _ h => h⟩
    | cons l ls ih =>
      intro I
      rw [List.foldl_cons]
      obtain ⟨h1, h2, h3⟩ := ih (I.findLink l.id)
      have hf : (I.findLink l.id).tasks = I.tasks ∧ (I.findLink l.id).objs = I.objs ∧
          ∀ o t st, .taskStatus o t st ∈ (I.findLink l.id).trace → .taskStatus o t st ∈ I.trace := by
        unfold Inst.findLink
        split
        · exact ⟨rfl, rfl, fun _ _ _ h => h⟩
        · refine ⟨rfl, rfl, fun o t st h => ?_⟩
          rcases List.mem_cons.1 h with h | h
          · cases h
          · exact h
      exact ⟨h1.trans hf.1, h2.trans hf.2.1, fun o t st h => hf.2.2 o t st (h3 o t st h)⟩
  obtain ⟨h1, h2, h3⟩ := key ls I
  exact ⟨⟨Ext.findLinks _, fun k => begun_findLinks k ls I, fun k => ends_findLinks k ls I, fun o ob h => ⟨ob, by rw [← h2]; exact h, rfl⟩,
    fun o t st h => .inl (h3 o t st h)⟩, h1, fun l => findLinks_linkSt I ls l⟩

theorem calm_status {I : Inst} {o : Nat} {st : TaskStatus} (x : Ext I (I.setTaskStatus o st)) :
    Calm I (I.setTaskStatus o st) (fun k => if isBeginStatus st then objTok I k o else 0) (fun k => if isEndStatus st then objTok I k o else 0) := by
  refine ⟨⟨x, fun k => begun_status I k o st, fun k => ends_status I k o st, fun p ob' h => ?_, fun p t s h => ?_⟩, ?_,
    fun l => setTaskStatus_linkSt I o st l⟩
  · unfold Inst.setTaskStatus at h
    split at h
    · exact ⟨ob', h, rfl⟩
    · have h : (I.objs.modify o (fun x => { x with status := st }))[p]? = some ob' := h
      rw [List.getElem?_modify] at h
      cases hp : I.objs[p]? with
      | none => rw [hp] at h; cases h
      | some ob =>
        rw [hp] at h
        refine ⟨ob, rfl, ?_⟩
        simp only [Option.map_eq_map, Option.map_some] at h
        split at h <;> cases h <;> rfl
  · unfold Inst.setTaskStatus at h
    split at h
    · exact .inl h
    · rename_i ob hob
      rcases List.mem_cons.1 h with e | h
      · cases e; exact .inr ⟨ob, hob, rfl⟩
      · exact .inl h
  · unfold Inst.setTaskStatus
    split <;> rfl

theorem calm_force (I : Inst) (b : Bool) : Calm I (setForce I b) zero zero :=
  ⟨⟨ext_force I b, fun _ => rfl, fun _ => rfl, fun _ ob h => ⟨ob, h, rfl⟩, fun _ _ _ h => .inl h⟩, rfl, fun _ => rfl⟩

theorem calm_flow {I : Inst} (st : FlowStatus) (h : st ≠ .notStarted) : Calm I (I.setFlowStatus st) zero zero := by
  refine ⟨⟨Ext.setFlowStatus _ h, fun k => ?_, fun k => ?_, fun _ ob h => ⟨ob, h, rfl⟩, fun o t s hm => ?_⟩, rfl, fun _ => rfl⟩
  · show timesBegun (_ :: I.trace) k = _
    unfold timesBegun; rw [List.countP_cons]; rfl
  · show timesEnded (_ :: I.trace) k = _
    unfold timesEnded; rw [List.countP_cons]; rfl
  · rcases List.mem_cons.1 hm with e | hm
    · cases e
    · exact .inl hm

theorem calm_handling (I : Inst) : Calm I { I with handling := true } zero zero :=
  ⟨⟨Ext.setHandling, fun _ => rfl, fun _ => rfl, fun _ ob h => ⟨ob, h, rfl⟩, fun _ _ _ h => .inl h⟩, rfl, fun _ => rfl⟩

/-- Entries for the targets of links. -/
def Toward (d : Def) (t : TaskRef) (es : List TaskEntry) : Prop := ∀ x ∈ es, ∃ l ∈ d.toLinks t, x.task = ⟨t.eh, l.dst⟩

/-- Rows of links of a task. -/
def RowsOf (d : Def) (t : TaskRef) (rs : List (LinkDef × LinkStatus)) : Prop := ∀ r ∈ rs, r.1 ∈ d.toLinks t

theorem toward_rows {d : Def} {t : TaskRef} {rows : List (LinkDef × LinkStatus × Nat)} (h : rows.map (·.1) = d.toLinks t) :
    Toward d t (rowEntries t.eh rows) := by
  intro x hx
  obtain ⟨r, hr, e⟩ := List.mem_map.1 hx
  exact ⟨r.1, by rw [← h]; exact List.mem_map_of_mem hr, by rw [← e]⟩

theorem toward_sort {d : Def} {t : TaskRef} {es : List TaskEntry} (h : Toward d t es) : Toward d t (sortEntries es) :=
  fun x hx => h x ((sortEntries_perm es).mem_iff.1 hx)

/-- All links of a task are set, and all its successors are entered. -/
def Covers (d : Def) (t : TaskRef) (rs : List (LinkDef × LinkStatus)) (es : List TaskEntry) : Prop :=
  ∀ l ∈ d.toLinks t, (∃ r ∈ rs, r.1 = l) ∧ ∃ x ∈ es, x.task = ⟨t.eh, l.dst⟩

theorem mem_doneSets' {rows : List (LinkDef × LinkStatus × Nat)} {x : LinkDef × LinkStatus × Nat} (h : x ∈ rows) : ∃ r ∈ doneSets rows, r.1 = x.1 := by
  refine ⟨(x.1, .false), List.mem_append_left _ (List.mem_flatMap.2 ⟨x, h, ?_⟩), rfl⟩
  unfold rowSets
  split
  · exact List.mem_cons_self ..
  · exact List.mem_cons_self ..

theorem covers_rows {d : Def} {t : TaskRef} {rows : List (LinkDef × LinkStatus × Nat)} (h : rows.map (·.1) = d.toLinks t)
    {rs : List (LinkDef × LinkStatus)} (hr : ∀ x ∈ rows, ∃ r ∈ rs, r.1 = x.1) : Covers d t rs (rowEntries t.eh rows) := by
  intro l hl
  rw [← h] at hl
  obtain ⟨x, hx, e⟩ := List.mem_map.1 hl
  have e : x.1 = l := e
  obtain ⟨r, h1, h2⟩ := hr x hx
  exact ⟨⟨r, h1, h2.trans e⟩, ⟨⟨t.eh, x.1.dst⟩, x.2.2⟩, List.mem_map.2 ⟨x, hx, rfl⟩, by rw [e]⟩

theorem covers_sort {d : Def} {t : TaskRef} {rs : List (LinkDef × LinkStatus)} {es : List TaskEntry} (h : Covers d t rs es) :
    Covers d t rs (sortEntries es) := by
  intro l hl
  obtain ⟨h1, x, h2, h3⟩ := h l hl
  exact ⟨h1, x, (sortEntries_perm es).mem_iff.2 h2, h3⟩

/-- The frames after an evaluation of a task. -/
inductive EndFrames (d : Def) (gen : LinkId → Nat) (t : TaskRef) (rest : List Fr) : List Fr → Prop
  | fails {rs : List (LinkDef × LinkStatus)} (h : RowsOf d t rs) : EndFrames d gen t rest (.rows gen rs :: .fail :: rest)
  | done {rs : List (LinkDef × LinkStatus)} {n : Bool} {es : List TaskEntry} (h : RowsOf d t rs) (he : Toward d t es) (hc : Covers d t rs es) :
      EndFrames d gen t rest (.rows gen rs :: .finish t n es :: rest)
  | unhandled : EndFrames d gen t rest (.fail :: rest)
  | handled {rs : List (LinkDef × LinkStatus)} {es : List TaskEntry} (h : RowsOf d t rs) (he : Toward d t es) (hc : Covers d t rs es) :
      EndFrames d gen t rest (.rows gen rs :: .lock es :: .release t :: rest)

theorem endFrames_done (prio : Bool) (ev : LinkDef → ExprOut) (I : Inst) (gen : LinkId → Nat) (t : TaskRef) (rest : List Fr) :
    EndFrames I.defn gen t rest (doneFrames prio ev I gen t rest) := by
  have hrows := doneRows_rows prio ev (I.defn.toLinks t)
  unfold doneFrames
  cases hx : doneRows prio ev (I.defn.toLinks t) with
  | error p =>
    rw [hx] at hrows
    refine .fails fun r hr => ?_
    obtain ⟨y, hy, e, _⟩ := mem_doneSets hr
    rw [e]; exact (hrows y hy).1
  | ok rows =>
    rw [hx] at hrows
    refine .done (fun r hr => ?_) (toward_sort (toward_rows (GraphM.doneRows_rowsOK hx).1.links))
      (covers_sort (covers_rows (GraphM.doneRows_rowsOK hx).1.links fun x h => mem_doneSets' h))
    obtain ⟨y, hy, e, _⟩ := mem_doneSets hr
    rw [e]; exact (hrows y hy).1

theorem endFrames_error (I : Inst) (gen : LinkId → Nat) (t : TaskRef) (rest : List Fr) :
    EndFrames I.defn gen t rest (errorFrames I gen t rest) := by
  unfold errorFrames
  split
  · exact .unhandled
  · rename_i rows hx
    have hl : rows.map (·.1) = I.defn.toLinks t := by
      unfold errorRows at hx
      split at hx
      · cases hx
        rw [List.map_map]
        refine (List.map_congr_left fun l _ => ?_).trans (List.map_id _)
        show (if l.type = .error then (l, LinkStatus.true, 0) else (l, .false, 4)).1 = l
        split <;> rfl
      · cases hx
    refine .handled (fun r hr => ?_) (toward_sort (toward_rows hl))
      (covers_sort (covers_rows hl fun x h => ⟨(x.1, x.2.1), List.mem_map.2 ⟨x, h, rfl⟩, rfl⟩))
    obtain ⟨y, hy, e⟩ := mem_plainSets hr
    rw [e, ← hl]
    exact List.mem_map_of_mem hy

/-- The links are followed whenever their source is done. -/
def Plain (ls : List LinkDef) : Prop := ∀ l ∈ ls, l.type = .dependency ∨ l.type = .label

/-- What `Done` sets for such links. -/
def pairs (ls : List LinkDef) : List (LinkDef × LinkStatus) := ls.flatMap (fun l => [(l, .false), (l, .true)])

theorem doneLoop_plain (prio : Bool) (ev : LinkDef → ExprOut) : ∀ (ls : List LinkDef) (a : DoneAcc), Plain ls → a.other = none →
    doneLoop prio ev a ls = .ok { a with rows := a.rows ++ ls.map (fun l => (l, .true, getEnterCode prio l.type)) } := by
  intro ls
  induction ls with
  | nil => intro a _ _; simp [doneLoop]
  | cons l ls ih =>
    intro a h ha
    have hi : doneIter prio ev a l = .ok { a with rows := a.rows ++ [(l, .true, getEnterCode prio l.type)] } := by
      unfold doneIter
      rcases h l (List.mem_cons_self ..) with e | e <;> rw [e]
    unfold doneLoop
    rw [hi]
    dsimp only
    have := ih { a with rows := a.rows ++ [(l, .true, getEnterCode prio l.type)] } (fun x hx => h x (List.mem_cons_of_mem _ hx)) ha
    dsimp only at this
    rw [this]
    simp

theorem doneRows_plain (prio : Bool) (ev : LinkDef → ExprOut) {ls : List LinkDef} (h : Plain ls) :
    doneRows prio ev ls = .ok (ls.map (fun l => (l, .true, getEnterCode prio l.type))) := by
  unfold doneRows
  rw [doneLoop_plain prio ev ls {} h rfl]
  simp [doneOtherwise]

theorem doneSets_plain (prio : Bool) {ls : List LinkDef} (h : Plain ls) :
    doneSets (ls.map (fun l => (l, .true, getEnterCode prio l.type))) = pairs ls := by
  have h1 : ∀ l ∈ ls, l.type ≠ .otherwise := fun l hl e => by rcases h l hl with h | h <;> (rw [h] at e; cases e)
  clear h
  unfold doneSets pairs
  have h2 : (ls.map (fun l => (l, LinkStatus.true, getEnterCode prio l.type))).flatMap otherSets = [] := by
    rw [List.flatMap_eq_nil_iff]
    intro r hr
    obtain ⟨l, hl, e⟩ := List.mem_map.1 hr
    rw [← e]
    unfold otherSets
    rw [if_neg fun hc => h1 l hl hc.2]
  rw [h2, List.append_nil, List.flatMap_map]
  induction ls with
  | nil => rfl
  | cons l ls ih =>
    have hx : rowSets (l, LinkStatus.true, getEnterCode prio l.type) = [(l, .false), (l, .true)] := by
      unfold rowSets
      rw [if_pos ⟨rfl, h1 l (List.mem_cons_self ..)⟩]
    simp only [List.flatMap_cons, hx]
    rw [ih (fun x hx => h1 x (List.mem_cons_of_mem _ hx)) (by
      rw [List.map_cons, List.flatMap_cons, List.append_eq_nil_iff] at h2
      exact h2.2)]

/-- No task failed between the two. -/
def SameFailed (I J : Inst) : Prop := ∀ o t, .taskStatus o t .failed ∈ J.trace → .taskStatus o t .failed ∈ I.trace

theorem sameFailed_findLinks (ls : List LinkDef) : ∀ I : Inst, SameFailed I (I.findLinks ls) := by
  induction ls with
  | nil => exact fun I o t h => h
  | cons l ls ih =>
    intro I o t h
    have h := ih (I.findLink l.id) o t h
    unfold Inst.findLink at h
    split at h
    · exact h
    · rcases List.mem_cons.1 h with e | h
      · cases e
      · exact h

theorem sameFailed_done (I : Inst) (o : Nat) : SameFailed I (I.setTaskStatus o .done) := by
  intro p t h
  unfold Inst.setTaskStatus at h
  split at h
  · exact h
  · rcases List.mem_cons.1 h with e | h
    · cases e
    · exact h

/-- The frames after an evaluation of a task all of whose links are followed. -/
def PlainEnd (d : Def) (gen : LinkId → Nat) (t : TaskRef) (rest : List Fr) (I J : Inst) (fs : List Fr) : Prop :=
  Plain (d.toLinks t) → (∃ n es, fs = .rows gen (pairs (d.toLinks t)) :: .finish t n es :: rest ∧ SameFailed I J) ∨ fs = .fail :: rest

theorem plainEnd_done (prio : Bool) (ev : LinkDef → ExprOut) (I : Inst) (gen : LinkId → Nat) (t : TaskRef) (rest : List Fr) (ret : Bool) (o : Nat) :
    PlainEnd I.defn gen t rest I (((setForce I ret).findLinks (I.defn.toLinks t)).setTaskStatus o .done) (doneFrames prio ev I gen t rest) := by
  intro h
  left
  unfold doneFrames
  rw [doneRows_plain prio ev h]
  dsimp only
  rw [doneSets_plain prio h]
  exact ⟨_, _, rfl, fun p u hm => sameFailed_findLinks _ (setForce I ret) p u (sameFailed_done _ _ p u hm)⟩

theorem plainEnd_error (I J : Inst) (gen : LinkId → Nat) (t : TaskRef) (rest : List Fr) :
    PlainEnd I.defn gen t rest I J (errorFrames I gen t rest) := by
  intro h
  right
  have h1 : (I.defn.toLinks t).any (fun l => l.type = .error) = false := by
    rw [List.any_eq_false]
    intro l hl e
    have e : l.type = .error := by simpa using e
    rcases h l hl with h | h <;> (rw [h] at e; cases e)
  unfold errorFrames errorRows
  rw [if_neg (by rw [h1]; exact Bool.false_ne_true)]

/-! ### Steps -/

/-- A step of goroutine `g`, other than the start of the error handler. -/
inductive Move (d : Def) (s : St) (g : Nat) : St → Prop
  | pop (o : Nat) (q : List Nat) (hq : s.queue = o :: q) (hg : s.gs g = []) : Move d s g ({ s with queue := q }.goto g [.run o])
  | over (o : Nat) (rest : List Fr) (hg : s.gs g = .run o :: rest)
      (hs : ∃ ob : Obj, s.inst.objs[o]? = some ob ∧ (ob.status = .done ∨ ob.status = .skipped)) : Move d s g (s.goto g rest)
  | wait (o : Nat) (rest : List Fr) (J : Inst) (hg : s.gs g = .run o :: rest) (h : Calm s.inst J zero zero)
      (hw : ∃ ob : Obj, s.inst.objs[o]? = some ob ∧ .taskStatus o ob.task .waiting ∈ J.trace) : Move d s g ({ s with inst := J }.goto g rest)
  | again (o : Nat) (rest : List Fr) (lg : List Ev) (hg : s.gs g = .run o :: rest) :
      Move d s g ({ s with queue := s.queue ++ [o], log := lg }.goto g rest)
  | ended (o : Nat) (ob : Obj) (rest fs : List Fr) (J : Inst) (hg : s.gs g = .run o :: rest) (ho : s.inst.objs[o]? = some ob)
      (h : Calm s.inst J zero (fun k => objTok s.inst k o)) (hf : EndFrames d s.gen ob.task rest fs)
      (hp : PlainEnd d s.gen ob.task rest s.inst J fs) : Move d s g ({ s with inst := J }.goto g fs)
  | rowsEnd (gen : LinkId → Nat) (rest : List Fr) (hg : s.gs g = .rows gen [] :: rest) : Move d s g (s.goto g rest)
  | row (gen : LinkId → Nat) (r : LinkDef × LinkStatus) (rs : List (LinkDef × LinkStatus)) (rest : List Fr)
      (hg : s.gs g = .rows gen (r :: rs) :: rest) (h : Eff s.inst (setPtr s gen r) zero zero) (ht : (setPtr s gen r).tasks = s.inst.tasks) :
      Move d s g ({ s with inst := setPtr s gen r }.goto g (.rows gen rs :: rest))
  | complete (t : TaskRef) (n : Bool) (es : List TaskEntry) (rest : List Fr) (J : Inst) (hg : s.gs g = .finish t n es :: rest)
      (h : Calm s.inst J zero zero) (hc : .flowStatus .completed ∈ J.trace) : Move d s g ({ s with inst := J }.goto g (.release t :: rest))
  | proceed (t : TaskRef) (n : Bool) (es : List TaskEntry) (rest : List Fr) (hg : s.gs g = .finish t n es :: rest) :
      Move d s g (s.goto g (.lock es :: .release t :: rest))
  | fail (rest : List Fr) (J : Inst) (hg : s.gs g = .fail :: rest) (h : Calm s.inst J zero zero) : Move d s g ({ s with inst := J }.goto g rest)
  | lock (es : List TaskEntry) (rest : List Fr) (hg : s.gs g = .lock es :: rest) (hl : s.lock = none) :
      Move d s g { s.goto g (.enter es :: rest) with lock := some g }
  | unlock (rest : List Fr) (hg : s.gs g = .enter [] :: rest) : Move d s g { s.goto g rest with lock := none }
  | known (x : TaskEntry) (xs : List TaskEntry) (rest : List Fr) (hg : s.gs g = .enter (x :: xs) :: rest)
      (hs : s.scheduled (s.inst.findOrCreateTask x.task).2 = true) :
      Move d s g ({ s with inst := (s.inst.findOrCreateTask x.task).1 }.goto g (.enter xs :: rest))
  | create (x : TaskEntry) (xs : List TaskEntry) (rest : List Fr) (hg : s.gs g = .enter (x :: xs) :: rest)
      (hs : s.scheduled (s.inst.findOrCreateTask x.task).2 = false) :
      Move d s g ({ s with inst := (s.inst.findOrCreateTask x.task).1 }.goto g (.test (s.inst.findOrCreateTask x.task).2 xs :: rest))
  | notReady (o : Nat) (ob : Obj) (es : List TaskEntry) (rest : List Fr) (J : Inst) (hg : s.gs g = .test o es :: rest) (ho : s.inst.objs[o]? = some ob)
      (h : Calm s.inst J zero zero) (hu : ∃ l ∈ d.fromLinks ob.task, s.inst.linkSt l.id = .unset) :
      Move d s g ({ s with inst := J }.goto g (.enter es :: rest))
  | ready (o : Nat) (ob : Obj) (es : List TaskEntry) (rest : List Fr) (J : Inst) (hg : s.gs g = .test o es :: rest) (ho : s.inst.objs[o]? = some ob)
      (h : Calm s.inst J (fun k => objTok s.inst k o) zero) (hd : ∀ l ∈ d.fromLinks ob.task, s.inst.linkSt l.id ≠ .unset) :
      Move d s g ({ s with inst := J }.goto g (.push o es :: rest))
  | skip (o : Nat) (ob : Obj) (es es' : List TaskEntry) (n : Bool) (rs : List (LinkDef × LinkStatus)) (rest : List Fr) (J : Inst)
      (hg : s.gs g = .test o es :: rest) (ho : s.inst.objs[o]? = some ob)
      (h : Calm s.inst J (fun k => objTok s.inst k o) (fun k => objTok s.inst k o)) (hr : RowsOf d ob.task rs) (he : Toward d ob.task es')
      (hd : ∀ l ∈ d.fromLinks ob.task, s.inst.linkSt l.id ≠ .unset) (hc : Covers d ob.task rs es')
      (hx : d.fromLinks ob.task ≠ [] ∧ ∀ l ∈ d.fromLinks ob.task, s.inst.linkSt l.id ≠ .true) :
      Move d s g ({ s with inst := J }.goto g (.rows s.gen rs :: .finish ob.task n es' :: .enter es :: rest))
  | push (o : Nat) (es : List TaskEntry) (rest : List Fr) (hg : s.gs g = .push o es :: rest) : Move d s g (pushStep s g o es rest)
  | release (t : TaskRef) (rest : List Fr) (hg : s.gs g = .release t :: rest) : Move d s g ((releaseStep s t).goto g rest)

/-- The error handler has not been started, and will not be by this step. -/
def NoHandler (d : Def) (s : St) : Prop := s.inst.handling = false ∨ d.eh = none

theorem decided_of_case {I : Inst} {t : TaskRef} (h : enterCase I t ≠ .notReady) : ∀ l ∈ I.defn.fromLinks t, I.linkSt l.id ≠ .unset := by
  intro l hl hu
  cases hc : enterCase I t with
  | notReady => exact h hc
  | eval =>
    have := ((enterDecision_eval _).1 hc).1 (I.linkSt l.id) (List.mem_map.2 ⟨l, hl, rfl⟩)
    rw [hu] at this; exact this
  | skip =>
    have := ((enterDecision_skip _).1 hc).2.1 (I.linkSt l.id) (List.mem_map.2 ⟨l, hl, rfl⟩)
    rw [hu] at this; exact this

theorem exec_move {d : Def} {prio : Bool} {s s' : St} (ht : TrOK d s) {g : Nat} {r : Res} (h : exec prio s g r = some s') : Move d s g s' := by
  unfold Conc.exec at h
  split at h
  · rename_i o rest hg
    have hb : Became s.inst o := ht.frames g (.run o) (by rw [hg]; exact List.mem_cons_self ..)
    split at h
    · cases h
    · rename_i ob hob
      have hr : .taskStatus o ob.task .ready ∈ s.inst.trace := by
        obtain ⟨ob', h1, h2⟩ := hb
        rw [hob] at h1; cases h1; exact h2
      have hset : ∀ st : TaskStatus, (st = .waiting ∨ st = .done ∨ st = .failed) → Ext s.inst (s.inst.setTaskStatus o st) := fun st hst =>
        Ext.setTaskStatus' hst fun ob2 ho2 => by rw [hob] at ho2; cases ho2; exact hr
      split at h
      · rename_i hst
        cases h; exact .over o rest hg ⟨ob, hob, hst⟩
      · cases h
        cases r with
        | done ev ret =>
          have c1 : Calm s.inst ((setForce s.inst ret).findLinks (s.inst.defn.toLinks ob.task)) (fun k => zero k + zero k) (fun k => zero k + zero k) :=
            (calm_force _ _).trans (calm_findLinks _ _)
          obtain ⟨ob', ho', ht'⟩ := c1.ext.objs o ob hob
          have x2 := Ext.setTaskStatus' (I := (setForce s.inst ret).findLinks (s.inst.defn.toLinks ob.task)) (o := o) (s := .done) (Or.inr (Or.inl rfl)) fun ob2 ho2 => by
            rw [ho'] at ho2; cases ho2; rw [ht']; exact c1.ext.mem hr
          have c2 := (c1.trans (calm_status x2)).congr (a' := zero) (b' := fun k => objTok s.inst k o) (fun k => by simp [isBeginStatus]) (fun k => by
            rw [objTok_ext c1.ext (List.getElem?_eq_some_iff.1 hob).1 k]; simp [isEndStatus])
          exact .ended o ob rest _ _ hg hob c2 (by rw [← ht.defn]; exact endFrames_done ..) (by rw [← ht.defn]; exact plainEnd_done prio ev s.inst s.gen ob.task rest ret o)
        | error =>
          have c2 := ((calm_status (hset .failed (.inr (.inr rfl)))).trans (calm_findLinks _ (s.inst.defn.toLinks ob.task))).congr (a' := zero) (b' := fun k => objTok s.inst k o)
            (fun k => by simp [isBeginStatus]) (fun k => by simp [isEndStatus])
          exact .ended o ob rest _ _ hg hob c2 (by rw [← ht.defn]; exact endFrames_error ..) (by rw [← ht.defn]; exact plainEnd_error s.inst _ s.gen ob.task rest)
        | wait =>
          exact .wait o rest _ hg ((calm_status (hset .waiting (.inl rfl))).congr (fun k => by simp [isBeginStatus]) (fun k => by simp [isEndStatus]))
            ⟨ob, hob, by rw [(getElem?_setTaskStatus (st := .waiting) hob).1]; exact List.mem_cons_self ..⟩
        | again => exact .again o rest _ hg
  · cases h

theorem enter_ready {I : Inst} {o : Nat} {ob : Obj} (ho : I.objs[o]? = some ob) (hdec : enterCase I ob.task = .eval) :
    Ext ((I.setTaskStatus o .entered).findLinks (I.defn.fromLinks ob.task))
      (((I.setTaskStatus o .entered).findLinks (I.defn.fromLinks ob.task)).setTaskStatus o .ready) := by
  obtain ⟨he2, ho2⟩ := getElem?_setTaskStatus (st := .entered) ho
  have h3 : Ext (I.setTaskStatus o .entered) ((I.setTaskStatus o .entered).findLinks (I.defn.fromLinks ob.task)) := Ext.findLinks _
  obtain ⟨ob3, ho3, ht3⟩ := h3.objs o _ ho2
  have hl : ∀ l, ((I.setTaskStatus o .entered).findLinks (I.defn.fromLinks ob.task)).linkSt l = I.linkSt l := fun l => by
    rw [findLinks_linkSt, setTaskStatus_linkSt]
  have hd : ((I.setTaskStatus o .entered).findLinks (I.defn.fromLinks ob.task)).defn = I.defn := by rw [h3.defn, (Ext.enter (I := I)).defn]
  have he : .taskStatus o ob.task .entered ∈ ((I.setTaskStatus o .entered).findLinks (I.defn.fromLinks ob.task)).trace :=
    h3.mem (by rw [he2]; exact List.mem_cons_self)
  simp only at ht3
  have hdec' := (enterDecision_eval _).1 hdec
  refine Ext.setTaskStatus fun ob4 ho4 ok => ?_
  rw [ho3] at ho4; cases ho4
  rw [ht3, hd]
  refine ⟨⟨fun l hl' => ?_, ?_⟩, he⟩
  · rw [← ok.links, hl]
    have := hdec'.1 (I.linkSt l.id) (List.mem_map.2 ⟨l, hl', rfl⟩)
    intro hc; rw [hc] at this; exact this
  · rcases hdec'.2 with h | h
    · left; simpa using h
    · right
      obtain ⟨l, hl', hs⟩ := List.mem_map.1 h
      exact ⟨l, hl', by rw [← ok.links, hl]; exact hs⟩

theorem enter_skipped {I : Inst} {o : Nat} {ob : Obj} (ho : I.objs[o]? = some ob) (hdec : enterCase I ob.task = .skip) :
    Ext ((I.setTaskStatus o .entered).findLinks (I.defn.fromLinks ob.task))
      (((I.setTaskStatus o .entered).findLinks (I.defn.fromLinks ob.task)).setTaskStatus o .skipped) := by
  obtain ⟨he2, ho2⟩ := getElem?_setTaskStatus (st := .entered) ho
  have h3 : Ext (I.setTaskStatus o .entered) ((I.setTaskStatus o .entered).findLinks (I.defn.fromLinks ob.task)) := Ext.findLinks _
  obtain ⟨ob3, ho3, ht3⟩ := h3.objs o _ ho2
  have hl : ∀ l, ((I.setTaskStatus o .entered).findLinks (I.defn.fromLinks ob.task)).linkSt l = I.linkSt l := fun l => by
    rw [findLinks_linkSt, setTaskStatus_linkSt]
  have hd : ((I.setTaskStatus o .entered).findLinks (I.defn.fromLinks ob.task)).defn = I.defn := by rw [h3.defn, (Ext.enter (I := I)).defn]
  have he : .taskStatus o ob.task .entered ∈ ((I.setTaskStatus o .entered).findLinks (I.defn.fromLinks ob.task)).trace :=
    h3.mem (by rw [he2]; exact List.mem_cons_self)
  simp only at ht3
  have hdec' := (enterDecision_skip _).1 hdec
  have hc : CanSkip ((I.setTaskStatus o .entered).findLinks (I.defn.fromLinks ob.task)) o ob.task := by
    refine ⟨⟨?_, fun l hl' => ⟨fun hc => ?_, fun hc => ?_⟩⟩, he⟩
    · rw [hd]; intro h; exact hdec'.1 (by simp [h])
    · have := hdec'.2.1 (I.linkSt l.id) (List.mem_map.2 ⟨l, by rw [hd] at hl'; exact hl', rfl⟩)
      rw [hl] at hc; rw [hc] at this; exact this
    · exact hdec'.2.2 (List.mem_map.2 ⟨l, by rw [hd] at hl'; exact hl', by rw [← hl]; exact hc⟩)
  refine Ext.setTaskStatus fun ob4 ho4 ok => ?_
  rw [ho3] at ho4; cases ho4
  rw [ht3]
  exact hc.evOK ok

theorem next_move {d : Def} {s s' : St} (ht : TrOK d s) {g : Nat} (h : next s g = some s')
    (hn : ∀ rest, s.gs g = .fail :: rest → NoHandler d s') : Move d s g s' := by
  unfold Conc.next at h
  split at h
  · cases h
  · cases h
  · rename_i gen rest hg; cases h; exact .rowsEnd gen rest hg
  · rename_i gen r rs rest hg
    cases h
    have hr := ht.frames g (.rows gen (r :: rs)) (by rw [hg]; exact List.mem_cons_self ..)
    refine .row gen r rs rest hg ?_ ?_
    · unfold setPtr
      split
      · refine ⟨Ext.setLink fun _ => hr r (List.mem_cons_self ..), fun k => ?_, fun k => ?_, fun _ ob h => ⟨ob, h, rfl⟩, fun o t st hm => ?_⟩
        · show timesBegun (_ :: s.inst.trace) k = _
          unfold timesBegun; rw [List.countP_cons]; rfl
        · show timesEnded (_ :: s.inst.trace) k = _
          unfold timesEnded; rw [List.countP_cons]; rfl
        · rcases List.mem_cons.1 hm with e | hm
          · cases e
          · exact .inl hm
      · exact (Calm.refl _).toEff
    · unfold setPtr
      split <;> rfl
  · rename_i t n es rest hg
    cases h
    unfold finishStep
    split
    · exact .complete t n es rest _ hg (calm_flow _ (by simp)) (List.mem_cons_self ..)
    · exact .proceed t n es rest hg
  · rename_i rest hg
    cases h
    have hn := hn rest hg
    unfold failStep at hn ⊢
    split
    · exact .fail rest _ hg (calm_flow _ (by simp))
    · rename_i h1
      rw [if_neg h1] at hn
      split
      · rename_i h2
        rw [if_pos h2] at hn
        rcases hn with h3 | h3
        · cases h3
        · rw [ht.defn, h3] at h2; cases h2
      · exact .fail rest _ hg (((calm_handling _).trans (calm_flow _ (by simp))).congr (fun _ => rfl) (fun _ => rfl))
  · rename_i es rest hg
    split at h
    · cases h
    · rename_i hl
      cases h
      exact .lock es rest hg (by simpa using hl)
  · rename_i rest hg; cases h; exact .unlock rest hg
  · rename_i x xs rest hg
    cases h
    unfold testStep
    split
    · rename_i hs; exact .known x xs rest hg hs
    · rename_i hs; exact .create x xs rest hg (by simpa using hs)
  · rename_i o es rest hg
    split at h
    · cases h
    · rename_i ob hob
      cases h
      have c0 : Calm s.inst ((s.inst.setTaskStatus o .entered).findLinks (s.inst.defn.fromLinks ob.task)) zero zero :=
        ((calm_status Ext.enter).trans (calm_findLinks _ _)).congr (fun k => by simp [isBeginStatus]) (fun k => by simp [isEndStatus])
      have hlt := (List.getElem?_eq_some_iff.1 hob).1
      cases hdec : (enterObj s.inst o ob.task).2 with
      | notReady =>
        have hc : enterCase s.inst ob.task = .notReady := hdec
        have hu : ∃ l ∈ d.fromLinks ob.task, s.inst.linkSt l.id = .unset := by
          have := (enterDecision_notReady _).1 hc
          obtain ⟨l, hl, e⟩ := List.mem_map.1 this
          exact ⟨l, by rw [← ht.defn]; exact hl, e⟩
        refine .notReady o ob es rest _ hg hob ?_ hu
        show Calm s.inst (afterEnter _ o (enterCase s.inst ob.task)) _ _
        rw [hc]; exact c0
      | eval =>
        have hc : enterCase s.inst ob.task = .eval := hdec
        have hd := decided_of_case (I := s.inst) (t := ob.task) (by rw [hc]; intro h; cases h)
        refine .ready o ob es rest _ hg hob ?_ (by rw [← ht.defn]; exact hd)
        have hj : enteredInst (enterObj s.inst o ob.task).1 ob.task .eval =
            ((s.inst.setTaskStatus o .entered).findLinks (s.inst.defn.fromLinks ob.task)).setTaskStatus o .ready := by
          show afterEnter _ o (enterCase s.inst ob.task) = _
          rw [hc]; rfl
        have hx1 := enter_ready hob hc
        rw [hj]
        exact (c0.trans (calm_status hx1)).congr (fun k => by rw [objTok_ext c0.ext hlt k]; simp [isBeginStatus]) (fun k => by simp [isEndStatus])
      | skip =>
        have hc : enterCase s.inst ob.task = .skip := hdec
        have hd := decided_of_case (I := s.inst) (t := ob.task) (by rw [hc]; intro h; cases h)
        have c1 := (c0.trans (calm_status (enter_skipped hob hc))).trans (calm_findLinks _ (s.inst.defn.toLinks ob.task))
        have c2 := c1.congr (a' := fun k => objTok s.inst k o) (b' := fun k => objTok s.inst k o)
          (fun k => by rw [objTok_ext c0.ext hlt k]; simp [isBeginStatus]) (fun k => by rw [objTok_ext c0.ext hlt k]; simp [isEndStatus])
        have hj : enteredInst (enterObj s.inst o ob.task).1 ob.task .skip =
            (((s.inst.setTaskStatus o .entered).findLinks (s.inst.defn.fromLinks ob.task)).setTaskStatus o .skipped).findLinks (s.inst.defn.toLinks ob.task) := by
          show (afterEnter _ o (enterCase s.inst ob.task)).findLinks ((afterEnter _ o (enterCase s.inst ob.task)).defn.toLinks ob.task) = _
          rw [hc]
          have : (((s.inst.setTaskStatus o .entered).findLinks (s.inst.defn.fromLinks ob.task)).setTaskStatus o .skipped).defn = s.inst.defn :=
            (c0.ext.trans (enter_skipped hob hc)).defn
          show Inst.findLinks _ (Def.toLinks (Inst.defn (Inst.setTaskStatus _ o .skipped)) _) = _
          rw [this]; rfl
        have hsk : (skipRows (s.inst.defn.toLinks ob.task)).map (·.1) = d.toLinks ob.task := by
          rw [← ht.defn]
          unfold skipRows
          rw [List.map_map]
          exact List.map_id _
        refine .skip o ob es _ _ _ rest _ hg hob (by rw [hj]; exact c2) (fun r hr => ?_) (toward_rows hsk) (by rw [← ht.defn]; exact hd)
          (covers_rows hsk fun x h => ⟨(x.1, x.2.1), List.mem_map.2 ⟨x, h, rfl⟩, rfl⟩) (by
            have hs := (enterDecision_skip _).1 hc
            rw [← ht.defn]
            exact ⟨fun e => hs.1 (by rw [e]; rfl), fun l hl e => hs.2.2 (List.mem_map.2 ⟨l, hl, e⟩)⟩)
        obtain ⟨y, hy, e⟩ := mem_plainSets hr
        obtain ⟨l, hl', hr'⟩ := List.mem_map.1 hy
        rw [e, ← hr', ← ht.defn]; exact hl'
  · rename_i o es rest hg; cases h; exact .push o es rest hg
  · rename_i t rest hg; cases h; exact .release t rest hg

/-- A step either moves as described or starts the error handler. -/
theorem step_move {d : Def} {prio : Bool} {s s' : St} (ht : TrOK d s) {l : Label} (h : step prio s l = some s') (hn : NoHandler d s') : ∃ g, Move d s g s' := by
  cases l with
  | pop g =>
    have h : Conc.pop s g = some s' := h
    unfold Conc.pop at h
    split at h
    · cases h
    · rename_i o q hq
      split at h
      · rename_i hc
        cases h
        exact ⟨g, .pop o q hq (by simpa using hc.2.2.1)⟩
      · cases h
  | exec g r => exact ⟨g, exec_move ht h⟩
  | next g => exact ⟨g, next_move ht h fun _ _ => hn⟩

end Flow.Conc
