import Verif.Proofs.ConcJoin
import Verif.Proofs.GraphUse

/-
Concurrent mode: why a task does not begin again. After a task began, its instance stays marked as scheduled until it is
removed, and then its incoming links are not decided again, because their sources have ended.
-/

namespace Flow.Conc

open Flow Spec

/-! ### What steps change -/

variable {d : Def} {s s' : St} {g : Nat}

theorem Move.others (m : Move d s g s') {h : Nat} (hh : h ≠ g) : s'.gs h = s.gs h := by
  cases m <;> exact if_neg hh

/-- The step decides that a task begins. -/
def Begins (d : Def) (s : St) (g : Nat) (k : TaskId) : Prop :=
  ∃ o es rest ob, s.gs g = .test o es :: rest ∧ s.inst.objs[o]? = some ob ∧ ob.task.id = k ∧ ∀ l ∈ d.fromLinks ob.task, s.inst.linkSt l.id ≠ .unset

theorem objTok_one {I : Inst} {o : Nat} {ob : Obj} (h : I.objs[o]? = some ob) (k : TaskId) : objTok I k o = if ob.task.id = k then 1 else 0 := by
  unfold objTok
  rw [h]
  simp

theorem Move.begun (m : Move d s g s') (k : TaskId) : timesBegun s'.inst.trace k = timesBegun s.inst.trace k ∨
    (Begins d s g k ∧ timesBegun s'.inst.trace k = timesBegun s.inst.trace k + 1) := by
  cases m with
  | pop | over | again | rowsEnd | proceed | lock | unlock | push => exact .inl rfl
  | wait _ _ _ _ h => exact .inl (h.begun k)
  | ended _ _ _ _ _ _ _ h => exact .inl (h.begun k)
  | row _ _ _ _ _ h => exact .inl (h.begun k)
  | complete _ _ _ _ _ _ h => exact .inl (h.begun k)
  | fail _ _ _ h => exact .inl (h.begun k)
  | known x => exact .inl (begun_create ..)
  | create x => exact .inl (begun_create ..)
  | notReady _ _ _ _ _ _ _ h => exact .inl (h.begun k)
  | ready o ob es rest J hg ho h hd =>
    have h1 := h.begun k
    rw [objTok_one ho] at h1
    split at h1
    · rename_i e; exact .inr ⟨⟨o, es, rest, ob, hg, ho, e, hd⟩, h1⟩
    · exact .inl h1
  | skip o ob es es' n rs rest J hg ho h hr he hd =>
    have h1 := h.begun k
    rw [objTok_one ho] at h1
    split at h1
    · rename_i e; exact .inr ⟨⟨o, es, rest, ob, hg, ho, e, hd⟩, h1⟩
    · exact .inl h1
  | release t => exact .inl (begun_release ..)

theorem Move.table (m : Move d s g s') {k : TaskId} {o : Nat} (h : s.inst.tasks.get? k = some o) :
    s'.inst.tasks.get? k = some o ∨ ∃ t rest, s.gs g = .release t :: rest ∧ t.id = k := by
  cases m with
  | pop | over | again | rowsEnd | proceed | lock | unlock | push => exact .inl h
  | wait _ _ _ _ c => exact .inl (by rw [← c.tasks] at h; exact h)
  | ended _ _ _ _ _ _ _ c => exact .inl (by rw [← c.tasks] at h; exact h)
  | row _ _ _ _ _ _ c => exact .inl (by rw [← c] at h; exact h)
  | complete _ _ _ _ _ _ c => exact .inl (by rw [← c.tasks] at h; exact h)
  | fail _ _ _ c => exact .inl (by rw [← c.tasks] at h; exact h)
  | known x => exact .inl (create_keeps _ _ h)
  | create x => exact .inl (create_keeps _ _ h)
  | notReady _ _ _ _ _ _ _ c => exact .inl (by rw [← c.tasks] at h; exact h)
  | ready _ _ _ _ _ _ _ c => exact .inl (by rw [← c.tasks] at h; exact h)
  | skip _ _ _ _ _ _ _ _ _ _ c => exact .inl (by rw [← c.tasks] at h; exact h)
  | release t rest hg =>
    by_cases e : t.id = k
    · exact .inr ⟨t, rest, hg, e⟩
    · refine .inl ?_
      show (s.inst.release t).tasks.get? k = some o
      rw [(release_facts s.inst t).2.1, AMap.get?_del, if_neg e]; exact h

theorem Move.sched (m : Move d s g s') {o : Nat} (h : s.scheduled o = true) : s'.scheduled o = true := by
  cases m with
  | push p es rest hg =>
    show (if o = p then true else s.scheduled o) = true
    split
    · rfl
    · exact h
  | _ => exact h

theorem Move.gen_le (m : Move d s g s') (l : LinkId) : s.gen l ≤ s'.gen l := by
  cases m with
  | release t rest hg =>
    show s.gen l ≤ if l ∈ (s.inst.defn.fromLinks t).map (·.id) then s.gen l + 1 else s.gen l
    split <;> omega
  | _ => exact Nat.le_refl _

theorem Move.links (m : Move d s g s') (l : LinkId) : s'.inst.linkSt l = s.inst.linkSt l ∨ s'.inst.linkSt l = .unset ∨
    ∃ gen r rs rest, s.gs g = .rows gen (r :: rs) :: rest ∧ r.1.id = l ∧ gen l = s.gen l := by
  cases m with
  | pop | over | again | rowsEnd | proceed | lock | unlock | push => exact .inl rfl
  | wait _ _ _ _ c => exact .inl (c.links l)
  | ended _ _ _ _ _ _ _ c => exact .inl (c.links l)
  | row gen r rs rest hg =>
    by_cases e : r.1.id = l
    · by_cases hgen : gen l = s.gen l
      · exact .inr (.inr ⟨gen, r, rs, rest, hg, e, hgen⟩)
      · refine .inl ?_
        show (setPtr s gen r).linkSt l = _
        unfold setPtr
        rw [e, if_neg hgen]
    · refine .inl ?_
      show (setPtr s gen r).linkSt l = _
      unfold setPtr
      split
      · show ((s.inst.links.set r.1.id r.2).get? l).getD .unset = _
        rw [AMap.get?_set_ne _ _ e]; rfl
      · rfl
  | complete _ _ _ _ _ _ c => exact .inl (c.links l)
  | fail _ _ _ c => exact .inl (c.links l)
  | known x => exact .inl (create_links ..)
  | create x => exact .inl (create_links ..)
  | notReady _ _ _ _ _ _ _ c => exact .inl (c.links l)
  | ready _ _ _ _ _ _ _ c => exact .inl (c.links l)
  | skip _ _ _ _ _ _ _ _ _ _ c => exact .inl (c.links l)
  | release t rest hg =>
    have h := (release_facts s.inst t).2.2.2 l
    by_cases e : l ∈ (s.inst.defn.fromLinks t).map (·.id)
    · rw [if_pos e] at h; exact .inr (.inl h)
    · rw [if_neg e] at h; exact .inl h

/-- Goroutine `g` executes the task instance, or decides that it begins. -/
def Source (d : Def) (s : St) (g : Nat) (s' : St) (ob : Obj) : Prop :=
  (∃ o rest, s.gs g = .run o :: rest ∧ s.inst.objs[o]? = some ob) ∨
  (Begins d s g ob.task.id ∧ timesBegun s'.inst.trace ob.task.id = timesBegun s.inst.trace ob.task.id + 1)

/-- The task a frame belongs to after its end. -/
def refOf : Fr → Option TaskRef
  | .finish t _ _ => some t
  | .release t => some t
  | _ => none

/-- New frames. -/
inductive NewFr (d : Def) (s : St) (g : Nat) (s' : St) : Fr → Prop
  | rows {rs : List (LinkDef × LinkStatus)} {ob : Obj} (h : Source d s g s' ob) (hr : RowsOf d ob.task rs) (he : ∃ o : Nat, s.inst.objs[o]? = some ob) :
      NewFr d s g s' (.rows s.gen rs)
  | fewer {gen : LinkId → Nat} {r : LinkDef × LinkStatus} {rs : List (LinkDef × LinkStatus)} {rest : List Fr} (h : s.gs g = .rows gen (r :: rs) :: rest) :
      NewFr d s g s' (.rows gen rs)
  | ref {f : Fr} {ob : Obj} (h : Source d s g s' ob) (hf : refOf f = some ob.task) (hn : ∀ gen rs, f ≠ .rows gen rs) (ht : ∀ o es, f ≠ .test o es) : NewFr d s g s' f
  | oldRef {f f0 : Fr} {t : TaskRef} (h0 : f0 ∈ s.gs g) (h : refOf f0 = some t) (hf : refOf f = some t) (hn : ∀ gen rs, f ≠ .rows gen rs)
      (ht : ∀ o es, f ≠ .test o es) : NewFr d s g s' f
  | test {o : Nat} {es : List TaskEntry} : NewFr d s g s' (.test o es)
  | other {f : Fr} (hf : refOf f = none) (hn : ∀ gen rs, f ≠ .rows gen rs) (ht : ∀ o es, f ≠ .test o es) : NewFr d s g s' f

/-- The frames of the goroutine after a step: the first frame is replaced, and only the first frame can be a test. -/
theorem Move.frames (m : Move d s g s') : ∃ new rest, s'.gs g = new ++ rest ∧ ((s.gs g = [] ∧ rest = []) ∨ ∃ f, s.gs g = f :: rest) ∧
    (∀ f ∈ new, NewFr d s g s' f) ∧ (∀ f ∈ new.drop 1, ∀ o es, f ≠ .test o es) := by
  have self : ∀ (S : St) (fs : List Fr), (S.goto g fs).gs g = fs := fun S fs => if_pos rfl
  have oth : ∀ {f : Fr}, refOf f = none → (∀ gen rs, f ≠ .rows gen rs) → (∀ o es, f ≠ .test o es) → ∀ x ∈ [f], NewFr d s g s' x := by
    intro f h1 h2 h3 x hx
    rw [List.mem_singleton.1 hx]; exact .other h1 h2 h3
  have nodrop : ∀ {f : Fr}, ∀ x ∈ [f].drop 1, ∀ o es, x ≠ .test o es := by intro f x hx; cases hx
  cases m with
  | pop o q hq hg =>
    exact ⟨[.run o], [], self _ _, .inl ⟨hg, rfl⟩, oth rfl (by intros; simp) (by intros; simp), nodrop⟩
  | over o rest hg => exact ⟨[], rest, self _ _, .inr ⟨_, hg⟩, by simp, by simp⟩
  | wait o rest J hg h => exact ⟨[], rest, self _ _, .inr ⟨_, hg⟩, by simp, by simp⟩
  | again o rest lg hg => exact ⟨[], rest, self _ _, .inr ⟨_, hg⟩, by simp, by simp⟩
  | ended o ob rest fs J hg ho h hf =>
    have hsrc : ∀ S, Source d s g S ob := fun _ => .inl ⟨o, rest, hg, ho⟩
    cases hf with
    | @fails rs h1 =>
      refine ⟨[.rows s.gen rs, .fail], rest, self _ _, .inr ⟨_, hg⟩, fun f hf => ?_, fun f hf => ?_⟩
      · simp only [List.mem_cons, List.not_mem_nil, or_false] at hf
        rcases hf with e | e
        · subst e; exact .rows (hsrc _) h1 ⟨o, ho⟩
        · subst e; exact .other rfl (by intros; simp) (by intros; simp)
      · simp at hf; subst hf; intros; simp
    | @done rs n es h1 h2 =>
      refine ⟨[.rows s.gen rs, .finish ob.task n es], rest, self _ _, .inr ⟨_, hg⟩, fun f hf => ?_, fun f hf => ?_⟩
      · simp only [List.mem_cons, List.not_mem_nil, or_false] at hf
        rcases hf with e | e
        · subst e; exact .rows (hsrc _) h1 ⟨o, ho⟩
        · subst e; exact .ref (hsrc _) rfl (by intros; simp) (by intros; simp)
      · simp at hf; subst hf; intros; simp
    | unhandled => exact ⟨[.fail], rest, self _ _, .inr ⟨_, hg⟩, oth rfl (by intros; simp) (by intros; simp), nodrop⟩
    | @handled rs es h1 h2 =>
      refine ⟨[.rows s.gen rs, .lock es, .release ob.task], rest, self _ _, .inr ⟨_, hg⟩, fun f hf => ?_, fun f hf => ?_⟩
      · simp only [List.mem_cons, List.not_mem_nil, or_false] at hf
        rcases hf with e | e | e
        · subst e; exact .rows (hsrc _) h1 ⟨o, ho⟩
        · subst e; exact .other rfl (by intros; simp) (by intros; simp)
        · subst e; exact .ref (hsrc _) rfl (by intros; simp) (by intros; simp)
      · simp at hf; rcases hf with e | e <;> subst e <;> intros <;> simp
  | rowsEnd gen rest hg => exact ⟨[], rest, self _ _, .inr ⟨_, hg⟩, by simp, by simp⟩
  | row gen r rs rest hg h htk =>
    refine ⟨[.rows gen rs], rest, self _ _, .inr ⟨_, hg⟩, fun f hf => ?_, nodrop⟩
    rw [List.mem_singleton.1 hf]; exact .fewer hg
  | complete t n es rest J hg h =>
    refine ⟨[.release t], rest, self _ _, .inr ⟨_, hg⟩, fun f hf => ?_, nodrop⟩
    rw [List.mem_singleton.1 hf]
    exact .oldRef (f0 := .finish t n es) (by rw [hg]; exact List.mem_cons_self ..) rfl rfl (by intros; simp) (by intros; simp)
  | proceed t n es rest hg =>
    refine ⟨[.lock es, .release t], rest, self _ _, .inr ⟨_, hg⟩, fun f hf => ?_, fun f hf => ?_⟩
    · simp only [List.mem_cons, List.not_mem_nil, or_false] at hf
      rcases hf with e | e
      · subst e; exact .other rfl (by intros; simp) (by intros; simp)
      · subst e
        exact .oldRef (f0 := .finish t n es) (by rw [hg]; exact List.mem_cons_self ..) rfl rfl (by intros; simp) (by intros; simp)
    · simp at hf; subst hf; intros; simp
  | fail rest J hg h => exact ⟨[], rest, self _ _, .inr ⟨_, hg⟩, by simp, by simp⟩
  | lock es rest hg hl => exact ⟨[.enter es], rest, self _ _, .inr ⟨_, hg⟩, oth rfl (by intros; simp) (by intros; simp), nodrop⟩
  | unlock rest hg => exact ⟨[], rest, self _ _, .inr ⟨_, hg⟩, by simp, by simp⟩
  | known x xs rest hg hs => exact ⟨[.enter xs], rest, self _ _, .inr ⟨_, hg⟩, oth rfl (by intros; simp) (by intros; simp), nodrop⟩
  | create x xs rest hg hs =>
    refine ⟨[.test _ xs], rest, self _ _, .inr ⟨_, hg⟩, fun f hf => ?_, nodrop⟩
    rw [List.mem_singleton.1 hf]; exact .test
  | notReady o ob es rest J hg ho h => exact ⟨[.enter es], rest, self _ _, .inr ⟨_, hg⟩, oth rfl (by intros; simp) (by intros; simp), nodrop⟩
  | ready o ob es rest J hg ho h hd => exact ⟨[.push o es], rest, self _ _, .inr ⟨_, hg⟩, oth rfl (by intros; simp) (by intros; simp), nodrop⟩
  | skip o ob es es' n rs rest J hg ho h hr he hd =>
    have hsrc : Source d s g ({ s with inst := J }.goto g (.rows s.gen rs :: .finish ob.task n es' :: .enter es :: rest)) ob :=
      .inr ⟨⟨o, es, rest, ob, hg, ho, rfl, hd⟩, by have := h.begun ob.task.id; rw [objTok_one ho, if_pos rfl] at this; exact this⟩
    refine ⟨[.rows s.gen rs, .finish ob.task n es', .enter es], rest, self _ _, .inr ⟨_, hg⟩, fun f hf => ?_, fun f hf => ?_⟩
    · simp only [List.mem_cons, List.not_mem_nil, or_false] at hf
      rcases hf with e | e | e
      · subst e; exact .rows hsrc hr ⟨o, ho⟩
      · subst e; exact .ref hsrc rfl (by intros; simp) (by intros; simp)
      · subst e; exact .other rfl (by intros; simp) (by intros; simp)
    · simp at hf; rcases hf with e | e <;> subst e <;> intros <;> simp
  | push o es rest hg => exact ⟨[.enter es], rest, self _ _, .inr ⟨_, hg⟩, oth rfl (by intros; simp) (by intros; simp), nodrop⟩
  | release t rest hg => exact ⟨[], rest, self _ _, .inr ⟨_, hg⟩, by simp, by simp⟩

/-! ### The invariant -/

/-- The links into a task of the main flow. -/
abbrev into (d : Def) (k : TaskId) : List LinkDef := d.fromLinks ⟨false, k⟩

/-- No incoming link is decided, or will be by a goroutine that is setting links. -/
def Idle (d : Def) (s : St) (k : TaskId) : Prop :=
  ∀ l ∈ into d k, s.inst.linkSt l.id = .unset ∧
    ∀ h gen rs, .rows gen rs ∈ s.gs h → (∃ r ∈ rs, r.1.id = l.id) → gen l.id ≠ s.gen l.id

/-- The sources of the incoming links have ended. -/
def SrcEnded (d : Def) (s : St) (k : TaskId) : Prop := ∀ l ∈ into d k, 1 ≤ timesEnded s.inst.trace l.src

/-- The frames of a goroutine that skips a task. -/
inductive Skipping (t : TaskRef) : List Fr → Prop
  | rows (gen : LinkId → Nat) (rs : List (LinkDef × LinkStatus)) (n : Bool) (es : List TaskEntry) : Skipping t [.rows gen rs, .finish t n es]
  | finish (n : Bool) (es : List TaskEntry) : Skipping t [.finish t n es]
  | lock (es : List TaskEntry) : Skipping t [.lock es, .release t]
  | release : Skipping t [.release t]

/-- The instance of the task is marked as scheduled, is about to be, or the goroutine with the lock is skipping the task. -/
inductive Busy (s : St) (k : TaskId) : Prop
  | marked (o : Nat) (h : s.inst.tasks.get? k = some o) (hs : s.scheduled o = true)
  | pushing (h o : Nat) (es : List TaskEntry) (rest : List Fr) (hl : s.lock = some h) (ht : s.inst.tasks.get? k = some o)
      (hg : s.gs h = .push o es :: rest)
  | skipping (h : Nat) (t : TaskRef) (fs : List Fr) (es : List TaskEntry) (rest : List Fr) (hl : s.lock = some h) (hk : t.id = k)
      (hf : Skipping t fs) (hg : s.gs h = fs ++ .enter es :: rest)

structure JoinOK (d : Def) (s : St) : Prop where
  gens : ∀ h gen rs, .rows gen rs ∈ s.gs h → ∀ l, gen l ≤ s.gen l
  refs : ∀ h f t, f ∈ s.gs h → refOf f = some t → 1 ≤ timesBegun s.inst.trace t.id
  tails : ∀ h f rest, s.gs h = f :: rest → ∀ x ∈ rest, ∀ o es, x ≠ .test o es
  test : ∀ h o es rest ob, s.gs h = .test o es :: rest → s.inst.objs[o]? = some ob →
    (timesBegun s.inst.trace ob.task.id = 0 ∧ s.inst.tasks.get? ob.task.id = some o) ∨
    (1 ≤ timesBegun s.inst.trace ob.task.id ∧ Idle d s ob.task.id)
  phase : ∀ k, timesBegun s.inst.trace k = 0 ∨ (timesBegun s.inst.trace k = 1 ∧ SrcEnded d s k ∧ (Busy s k ∨ Idle d s k))

theorem JoinOK.init (d : Def) (uri : String) : JoinOK d (init d uri) := by
  have hgs : ∀ h f, f ∈ (Conc.init d uri).gs h → f = Fr.lock (Inst.startEntries d false) := by
    intro h f hf
    have hf : f ∈ (if h = 0 then [Fr.lock (Inst.startEntries d false)] else []) := hf
    split at hf
    · exact List.mem_singleton.1 hf
    · cases hf
  refine ⟨fun h gen rs hf => (by cases hgs h _ hf), fun h f t hf hr => (by rw [hgs h f hf] at hr; cases hr), fun h f rest hh x hx => ?_,
    fun h o es rest ob hh => (by cases hgs h (.test o es) (by rw [hh]; exact List.mem_cons_self ..)), fun k => .inl rfl⟩
  rw [hgs h x (by rw [hh]; exact List.mem_cons_of_mem _ hx)]
  intros; simp

/-! #### Consequences -/

theorem same_link {gr : Graph} (h : (gr.links.map (·.id)).Nodup) {l l' : LinkDef} (h1 : l ∈ gr.links) (h2 : l' ∈ gr.links) (e : l.id = l'.id) : l = l' := by
  revert h h1 h2
  generalize gr.links = ls
  intro h h1 h2
  induction ls with
  | nil => cases h1
  | cons x xs ih =>
    rw [List.map_cons, List.nodup_cons] at h
    rcases List.mem_cons.1 h1 with e1 | h1
    · rcases List.mem_cons.1 h2 with e2 | h2
      · rw [e1, e2]
      · exact absurd (List.mem_map.2 ⟨l', h2, by rw [← e, e1]⟩) h.1
    · rcases List.mem_cons.1 h2 with e2 | h2
      · exact absurd (List.mem_map.2 ⟨l, h1, by rw [e, e2]⟩) h.1
      · exact ih h.2 h1 h2

theorem mem_ended {tr : List Flow.Ev} {o : Nat} {t : TaskRef} {st : TaskStatus} (h : .taskStatus o t st ∈ tr) (hs : isEndStatus st = true) :
    1 ≤ timesEnded tr t.id := by
  unfold timesEnded
  exact List.countP_pos_iff.2 ⟨_, h, by cases st <;> simp [isEndStatus] at hs <;> simp [endsTask]⟩

/-- The source of a decided link has ended. -/
theorem decided_ended (wf : ((d.graph false).links.map (·.id)).Nodup) (ht : TrOK d s) (he : EhOK s) {l : LinkDef} (hl : l ∈ (d.graph false).links)
    (hd : s.inst.linkSt l.id ≠ .unset) : 1 ≤ timesEnded s.inst.trace l.src := by
  rw [ht.ok.links] at hd
  have hm := lastLink_mem hd
  obtain ⟨post, pre, hs⟩ := List.append_of_mem hm
  have hev := ht.ok.trace.at hs
  have hsub : ∀ ev, ev ∈ pre → ev ∈ s.inst.trace := fun ev h => by rw [hs]; exact List.mem_append_right _ (List.mem_cons_of_mem _ h)
  obtain ⟨t, o, l', h1, h2, h3⟩ := hev
  rw [ht.defn] at h1
  have key : ∀ st, isEndStatus st = true → .taskStatus o t st ∈ pre → 1 ≤ timesEnded s.inst.trace l.src := by
    intro st hst hp
    have h4 := he.events o t st (hsub _ hp)
    have h5 := mem_toLinks h1
    rw [h4] at h5
    have e := same_link wf h5.1 hl h2
    rw [← e, h5.2]
    exact mem_ended (hsub _ hp) hst
  revert h3
  cases lastLink s.inst.trace l.id with
  | unset => intro h3; exact h3.elim
  | true =>
    intro h3
    dsimp only at h3
    split at h3
    · exact key .failed rfl h3
    · exact key .done rfl h3
  | false =>
    intro h3
    rcases h3 with h3 | h3
    · exact key .failed rfl h3
    · exact key .done rfl h3
  | skipped => intro h3; exact key .skipped rfl h3

theorem frame_le {w : Fr → Nat} {B A : Nat} (ok : ∀ n, sumTo (fun h => wSum w (s.gs h)) n + A ≤ B) (h : Nat) {f : Fr} {rest : List Fr}
    (hg : s.gs h = f :: rest) : w f + A ≤ B := by
  have h1 := ok (h + 1)
  have h2 := sumTo_le (fun h => wSum w (s.gs h)) (g := h) (h + 1) (by omega)
  simp only [hg, wSum_cons] at h2
  omega

theorem startTok_le (h : ((d.graph false).tasks.map (·.id)).Nodup) (k : TaskId) : startTok d false k ≤ 1 := by
  unfold startTok entTok Inst.startEntries
  rw [List.countP_map]
  rw [List.countP_filter]
  refine Nat.le_trans (List.countP_mono_left (q := fun t => t.id = k) fun t _ ht => ?_) ?_
  · simp at ht ⊢; exact ht.1
  · revert h
    generalize (d.graph false).tasks = ts
    intro h
    induction ts with
    | nil => exact Nat.zero_le _
    | cons x xs ih =>
      rw [List.map_cons, List.nodup_cons] at h
      rw [List.countP_cons]
      split
      · rename_i e
        have e : x.id = k := by simpa using e
        have : xs.countP (fun t => decide (t.id = k)) = 0 := by
          rw [List.countP_eq_zero]
          intro t ht hc
          exact h.1 (List.mem_map.2 ⟨t, ht, by rw [e]; simpa using hc⟩)
        omega
      · exact ih h.2

/-- Every task begins at most once. -/
theorem JoinOK.once (ok : JoinOK d s) (k : TaskId) : timesBegun s.inst.trace k ≤ 1 := by
  rcases ok.phase k with h | ⟨h, _⟩ <;> omega

/-- A task that begins did not begin before, and its instance is the one of the table. -/
theorem JoinOK.first (ok : JoinOK d s) (hst : ((d.graph false).tasks.map (·.id)).Nodup) (hent : EntOK d s) (he : EhOK s) {k : TaskId} (h : Begins d s g k) :
    timesBegun s.inst.trace k = 0 ∧ ∃ o es rest, s.gs g = .test o es :: rest ∧ s.inst.tasks.get? k = some o := by
  obtain ⟨o, es, rest, ob, hg, ho, e, hd⟩ := h
  have hb := he.objs o ob ho
  have htask : ob.task = ⟨false, k⟩ := by
    cases hob : ob.task with
    | mk b i =>
      rw [hob] at hb e
      cases hb; cases e; rfl
  rcases ok.test g o es rest ob hg ho with ⟨h1, h2⟩ | ⟨h1, h2⟩
  · rw [e] at h1 h2; exact ⟨h1, o, es, rest, hg, h2⟩
  · exfalso
    rw [e] at h1 h2
    rw [htask] at hd
    cases hF : into d k with
    | nil =>
      have h3 := frame_le (hent k hF) g hg
      have h4 := startTok_le hst k
      have h5 : objTok s.inst k o = 1 := by rw [objTok_one ho, if_pos e]
      simp only [frEnt] at h3
      omega
    | cons l ls =>
      have hl : l ∈ into d k := by rw [hF]; exact List.mem_cons_self ..
      exact hd l hl (h2 l hl).1

theorem ActOK.ended_le (ok : ActOK s) (k : TaskId) : timesEnded s.inst.trace k ≤ timesBegun s.inst.trace k := by
  have := ok k 0
  simp only [sumTo] at this
  omega

/-- A source of a new row has not ended before. -/
theorem source_open (ok : JoinOK d s) (hst : ((d.graph false).tasks.map (·.id)).Nodup) (hent : EntOK d s) (he : EhOK s) (ha : ActOK s) {ob : Obj}
    (h : Source d s g s' ob) : timesEnded s.inst.trace ob.task.id = 0 := by
  rcases h with ⟨o, rest, hg, ho⟩ | h
  · have h1 := frame_le (ha ob.task.id) g hg
    have h2 := ok.once ob.task.id
    have h3 : objTok s.inst ob.task.id o = 1 := by rw [objTok_one ho, if_pos rfl]
    simp only [frAct] at h1
    omega
  · have h1 := (ok.first hst hent he h.1).1
    have h2 := ha.ended_le ob.task.id
    omega

/-- A source of a new reference has begun. -/
theorem source_begun {s s' : St} (ha : ActOK s) {ob : Obj} (h : Source d s g s' ob) : 1 ≤ timesBegun s.inst.trace ob.task.id ∨
    timesBegun s'.inst.trace ob.task.id = timesBegun s.inst.trace ob.task.id + 1 := by
  rcases h with ⟨o, rest, hg, ho⟩ | h
  · have h1 := frame_le (ha ob.task.id) g hg
    have h3 : objTok s.inst ob.task.id o = 1 := by rw [objTok_one ho, if_pos rfl]
    simp only [frAct] at h1
    exact .inl (by omega)
  · exact .inr h.2

/-- A frame after a step is old or new. -/
theorem Move.mem_frames (m : Move d s g s') {h : Nat} {f : Fr} (hf : f ∈ s'.gs h) : f ∈ s.gs h ∨ (h = g ∧ NewFr d s g s' f) := by
  by_cases e : h = g
  · subst e
    obtain ⟨new, rest, h1, h2, h3, _⟩ := m.frames
    rw [h1] at hf
    rcases List.mem_append.1 hf with hf | hf
    · exact .inr ⟨rfl, h3 f hf⟩
    · rcases h2 with ⟨_, h2⟩ | ⟨f0, h2⟩
      · rw [h2] at hf; cases hf
      · exact .inl (by rw [h2]; exact List.mem_cons_of_mem _ hf)
  · rw [m.others e] at hf; exact .inl hf

/-! #### Preservation -/

theorem Idle.step (ok : JoinOK d s) (wf : WellFormed (d.graph false)) (hent : EntOK d s) (he : EhOK s) (ha : ActOK s) (m : Move d s g s') {k : TaskId}
    (hi : Idle d s k) (hsrc : SrcEnded d s k) : Idle d s' k := by
  intro l hl
  obtain ⟨h1, h2⟩ := hi l hl
  refine ⟨?_, fun h gen rs hf hr => ?_⟩
  · rcases m.links l.id with h3 | h3 | ⟨gen, r, rs, rest, hg, e, hgen⟩
    · rw [h3]; exact h1
    · exact h3
    · exact absurd hgen (h2 g gen (r :: rs) (by rw [hg]; exact List.mem_cons_self ..) ⟨r, List.mem_cons_self .., e⟩)
  · have hle := m.gen_le l.id
    have old : ∀ h' rs', .rows gen rs' ∈ s.gs h' → (∀ r ∈ rs, r ∈ rs') → gen l.id ≠ s'.gen l.id := by
      intro h' rs' hf' hsub
      obtain ⟨r, hr1, hr2⟩ := hr
      have h3 := h2 h' gen rs' hf' ⟨r, hsub r hr1, hr2⟩
      have h4 := ok.gens h' gen rs' hf' l.id
      omega
    rcases m.mem_frames hf with hf | ⟨_, hf⟩
    · exact old h rs hf (fun _ h => h)
    · cases hf with
      | rows hs hrows hex =>
        rename_i ob
        obtain ⟨r, hr1, hr2⟩ := hr
        obtain ⟨o, hob⟩ := hex
        have h3 := mem_toLinks (hrows r hr1)
        rw [he.objs o ob hob] at h3
        have h4 := (mem_fromLinks.1 hl).1
        have e := same_link wf.links h3.1 h4 hr2
        have h5 := source_open ok wf.tasks hent he ha hs
        have h6 := hsrc l hl
        rw [← e, h3.2] at h6
        omega
      | fewer h3 =>
        rename_i r rest
        exact old g (r :: rs) (by rw [h3]; exact List.mem_cons_self ..) (fun x hx => List.mem_cons_of_mem _ hx)
      | ref _ _ hn _ => exact absurd rfl (hn gen rs)
      | oldRef _ _ _ hn _ => exact absurd rfl (hn gen rs)
      | other _ hn _ => exact absurd rfl (hn gen rs)

theorem holder (lk : LockOK s) {h : Nat} {f : Fr} (hf : f ∈ s.gs h) (hh : holding f = true) : s.lock = some h := by
  have h1 := lk.held h
  have h2 : 0 < (s.gs h).countP holding := List.countP_pos_iff.2 ⟨f, hf, hh⟩
  by_cases e : s.lock = some h
  · exact e
  · rw [if_neg e] at h1; omega

theorem Move.lock_other (m : Move d s g s') (lk : LockOK s) {h : Nat} (hl : s.lock = some h) (hh : h ≠ g) : s'.lock = some h := by
  cases m with
  | lock es rest hg hn => rw [hl] at hn; cases hn
  | unlock rest hg =>
    have := holder lk (h := g) (f := .enter []) (by rw [hg]; exact List.mem_cons_self ..) rfl
    rw [hl] at this
    exact absurd (Option.some.inj this) hh
  | _ => exact hl

theorem Busy.step (lk : LockOK s) (m : Move d s g s') {k : TaskId} (hb : Busy s k) (hn : ¬ ∃ t rest, s.gs g = .release t :: rest ∧ t.id = k) : Busy s' k := by
  have tab : ∀ {o : Nat}, s.inst.tasks.get? k = some o → s'.inst.tasks.get? k = some o := fun h => (m.table h).resolve_right hn
  cases hb with
  | marked o h hs => exact .marked o (tab h) (m.sched hs)
  | pushing h o es rest hl ht hg =>
    by_cases e : h = g
    · subst e
      cases m with
      | push o' es' rest' hg' =>
        rw [hg] at hg'; cases hg'
        exact .marked o (tab ht) (if_pos rfl)
      | pop _ _ _ hg' => rw [hg] at hg'; cases hg'
      | over _ _ hg' => rw [hg] at hg'; cases hg'
      | wait _ _ _ hg' => rw [hg] at hg'; cases hg'
      | again _ _ _ hg' => rw [hg] at hg'; cases hg'
      | ended _ _ _ _ _ hg' => rw [hg] at hg'; cases hg'
      | rowsEnd _ _ hg' => rw [hg] at hg'; cases hg'
      | row _ _ _ _ hg' => rw [hg] at hg'; cases hg'
      | complete _ _ _ _ _ hg' => rw [hg] at hg'; cases hg'
      | proceed _ _ _ _ hg' => rw [hg] at hg'; cases hg'
      | fail _ _ hg' => rw [hg] at hg'; cases hg'
      | lock _ _ hg' => rw [hg] at hg'; cases hg'
      | unlock _ hg' => rw [hg] at hg'; cases hg'
      | known _ _ _ hg' => rw [hg] at hg'; cases hg'
      | create _ _ _ hg' => rw [hg] at hg'; cases hg'
      | notReady _ _ _ _ _ hg' => rw [hg] at hg'; cases hg'
      | ready _ _ _ _ _ hg' => rw [hg] at hg'; cases hg'
      | skip _ _ _ _ _ _ _ _ hg' => rw [hg] at hg'; cases hg'
      | release _ _ hg' => rw [hg] at hg'; cases hg'
    · exact .pushing h o es rest (m.lock_other lk hl e) (tab ht) (by rw [m.others e]; exact hg)
  | skipping h t fs es rest hl hk hf hg =>
    by_cases e : h = g
    · subst e
      cases hf with
      | rows gen rs n es' =>
        cases m with
        | rowsEnd gen' rest' hg' =>
          rw [hg] at hg'; cases hg'
          exact .skipping h t _ es rest hl hk (.finish n es') (if_pos rfl)
        | row gen' r' rs' rest' hg' =>
          rw [hg] at hg'; cases hg'
          exact .skipping h t _ es rest hl hk (.rows gen rs' n es') (if_pos rfl)
        | push _ _ _ hg' => rw [hg] at hg'; cases hg'
        | pop _ _ _ hg' => rw [hg] at hg'; cases hg'
        | over _ _ hg' => rw [hg] at hg'; cases hg'
        | wait _ _ _ hg' => rw [hg] at hg'; cases hg'
        | again _ _ _ hg' => rw [hg] at hg'; cases hg'
        | ended _ _ _ _ _ hg' => rw [hg] at hg'; cases hg'
        | complete _ _ _ _ _ hg' => rw [hg] at hg'; cases hg'
        | proceed _ _ _ _ hg' => rw [hg] at hg'; cases hg'
        | fail _ _ hg' => rw [hg] at hg'; cases hg'
        | lock _ _ hg' => rw [hg] at hg'; cases hg'
        | unlock _ hg' => rw [hg] at hg'; cases hg'
        | known _ _ _ hg' => rw [hg] at hg'; cases hg'
        | create _ _ _ hg' => rw [hg] at hg'; cases hg'
        | notReady _ _ _ _ _ hg' => rw [hg] at hg'; cases hg'
        | ready _ _ _ _ _ hg' => rw [hg] at hg'; cases hg'
        | skip _ _ _ _ _ _ _ _ hg' => rw [hg] at hg'; cases hg'
        | release _ _ hg' => rw [hg] at hg'; cases hg'
      | finish n es' =>
        cases m with
        | complete t' n' es'' rest' J hg' c =>
          rw [hg] at hg'; cases hg'
          exact .skipping h t _ es rest hl hk .release (if_pos rfl)
        | proceed t' n' es'' rest' hg' =>
          rw [hg] at hg'; cases hg'
          exact .skipping h t _ es rest hl hk (.lock es') (if_pos rfl)
        | push _ _ _ hg' => rw [hg] at hg'; cases hg'
        | pop _ _ _ hg' => rw [hg] at hg'; cases hg'
        | over _ _ hg' => rw [hg] at hg'; cases hg'
        | wait _ _ _ hg' => rw [hg] at hg'; cases hg'
        | again _ _ _ hg' => rw [hg] at hg'; cases hg'
        | ended _ _ _ _ _ hg' => rw [hg] at hg'; cases hg'
        | rowsEnd _ _ hg' => rw [hg] at hg'; cases hg'
        | row _ _ _ _ hg' => rw [hg] at hg'; cases hg'
        | fail _ _ hg' => rw [hg] at hg'; cases hg'
        | lock _ _ hg' => rw [hg] at hg'; cases hg'
        | unlock _ hg' => rw [hg] at hg'; cases hg'
        | known _ _ _ hg' => rw [hg] at hg'; cases hg'
        | create _ _ _ hg' => rw [hg] at hg'; cases hg'
        | notReady _ _ _ _ _ hg' => rw [hg] at hg'; cases hg'
        | ready _ _ _ _ _ hg' => rw [hg] at hg'; cases hg'
        | skip _ _ _ _ _ _ _ _ hg' => rw [hg] at hg'; cases hg'
        | release _ _ hg' => rw [hg] at hg'; cases hg'
      | lock es' =>
        cases m with
        | lock es'' rest' hg' hn' => rw [hl] at hn'; cases hn'
        | push _ _ _ hg' => rw [hg] at hg'; cases hg'
        | pop _ _ _ hg' => rw [hg] at hg'; cases hg'
        | over _ _ hg' => rw [hg] at hg'; cases hg'
        | wait _ _ _ hg' => rw [hg] at hg'; cases hg'
        | again _ _ _ hg' => rw [hg] at hg'; cases hg'
        | ended _ _ _ _ _ hg' => rw [hg] at hg'; cases hg'
        | rowsEnd _ _ hg' => rw [hg] at hg'; cases hg'
        | row _ _ _ _ hg' => rw [hg] at hg'; cases hg'
        | complete _ _ _ _ _ hg' => rw [hg] at hg'; cases hg'
        | proceed _ _ _ _ hg' => rw [hg] at hg'; cases hg'
        | fail _ _ hg' => rw [hg] at hg'; cases hg'
        | unlock _ hg' => rw [hg] at hg'; cases hg'
        | known _ _ _ hg' => rw [hg] at hg'; cases hg'
        | create _ _ _ hg' => rw [hg] at hg'; cases hg'
        | notReady _ _ _ _ _ hg' => rw [hg] at hg'; cases hg'
        | ready _ _ _ _ _ hg' => rw [hg] at hg'; cases hg'
        | skip _ _ _ _ _ _ _ _ hg' => rw [hg] at hg'; cases hg'
        | release _ _ hg' => rw [hg] at hg'; cases hg'
      | release => exact absurd ⟨t, _, hg, hk⟩ hn
    · exact .skipping h t fs es rest (m.lock_other lk hl e) hk hf (by rw [m.others e]; exact hg)

/-- After the removal of its instance no incoming link of a task is decided. -/
theorem idle_release (ok : JoinOK d s) (ht : TrOK d s) (he : EhOK s) {t : TaskRef} {rest : List Fr} (hg : s.gs g = .release t :: rest) (m : Move d s g s') :
    Idle d s' t.id := by
  have hb : t.eh = false := he.frames g (.release t) (by rw [hg]; exact List.mem_cons_self ..)
  have htask : t = ⟨false, t.id⟩ := by
    cases t with
    | mk b i => cases hb; rfl
  cases m with
  | release t' rest' hg' =>
    rw [hg] at hg'; cases hg'
    intro l hl
    have hl' : l ∈ s.inst.defn.fromLinks t := by rw [ht.defn, htask]; exact hl
    have hm : l.id ∈ (s.inst.defn.fromLinks t).map (·.id) := List.mem_map.2 ⟨l, hl', rfl⟩
    refine ⟨?_, fun h gen rs hf _ => ?_⟩
    · show (s.inst.release t).linkSt l.id = .unset
      rw [(release_facts s.inst t).2.2.2, if_pos hm]
    · show gen l.id ≠ if l.id ∈ (s.inst.defn.fromLinks t).map (·.id) then s.gen l.id + 1 else s.gen l.id
      rw [if_pos hm]
      have hf' : .rows gen rs ∈ s.gs h := by
        rcases mem_goto hf with ⟨e, hf2⟩ | ⟨_, hf2⟩
        · rw [e, hg]; exact List.mem_cons_of_mem _ hf2
        · exact hf2
      have := ok.gens h gen rs hf' l.id
      omega
  | push _ _ _ hg' => rw [hg] at hg'; cases hg'
  | pop _ _ _ hg' => rw [hg] at hg'; cases hg'
  | over _ _ hg' => rw [hg] at hg'; cases hg'
  | wait _ _ _ hg' => rw [hg] at hg'; cases hg'
  | again _ _ _ hg' => rw [hg] at hg'; cases hg'
  | ended _ _ _ _ _ hg' => rw [hg] at hg'; cases hg'
  | rowsEnd _ _ hg' => rw [hg] at hg'; cases hg'
  | row _ _ _ _ hg' => rw [hg] at hg'; cases hg'
  | complete _ _ _ _ _ hg' => rw [hg] at hg'; cases hg'
  | proceed _ _ _ _ hg' => rw [hg] at hg'; cases hg'
  | fail _ _ hg' => rw [hg] at hg'; cases hg'
  | lock _ _ hg' => rw [hg] at hg'; cases hg'
  | unlock _ hg' => rw [hg] at hg'; cases hg'
  | known _ _ _ hg' => rw [hg] at hg'; cases hg'
  | create _ _ _ hg' => rw [hg] at hg'; cases hg'
  | notReady _ _ _ _ _ hg' => rw [hg] at hg'; cases hg'
  | ready _ _ _ _ _ hg' => rw [hg] at hg'; cases hg'
  | skip _ _ _ _ _ _ _ _ hg' => rw [hg] at hg'; cases hg'

theorem SrcEnded.step (m : Move d s g s') {k : TaskId} (h : SrcEnded d s k) : SrcEnded d s' k :=
  fun l hl => Nat.le_trans (h l hl) (ends_mono m.ext l.src)

/-- A task that begins is busy. -/
theorem busy_begins (lk : LockOK s) (m : Move d s g s') {k : TaskId} (hb : Begins d s g k) (hn : timesBegun s'.inst.trace k ≠ timesBegun s.inst.trace k)
    {o : Nat} {es : List TaskEntry} {rest : List Fr} (hg : s.gs g = .test o es :: rest) (htab : s.inst.tasks.get? k = some o) : Busy s' k := by
  have hl : s.lock = some g := holder lk (f := .test o es) (by rw [hg]; exact List.mem_cons_self ..) rfl
  obtain ⟨o', es', rest', ob, hg', ho, e, hd⟩ := hb
  rw [hg] at hg'; cases hg'
  cases m with
  | ready o1 ob1 es1 rest1 J hg1 ho1 c hd1 =>
    rw [hg] at hg1; cases hg1
    exact .pushing g o es rest hl (by rw [← c.tasks] at htab; exact htab) (if_pos rfl)
  | skip o1 ob1 es1 es2 n rs rest1 J hg1 ho1 c hr he hd1 =>
    rw [hg] at hg1; cases hg1
    rw [ho] at ho1; cases ho1
    exact .skipping g ob.task _ es rest hl e (.rows s.gen rs n es2) (if_pos rfl)
  | notReady o1 ob1 es1 rest1 J hg1 ho1 c => exact absurd (c.begun k) hn
  | push _ _ _ hg' => rw [hg] at hg'; cases hg'
  | pop _ _ _ hg' => rw [hg] at hg'; cases hg'
  | over _ _ hg' => rw [hg] at hg'; cases hg'
  | wait _ _ _ hg' => rw [hg] at hg'; cases hg'
  | again _ _ _ hg' => rw [hg] at hg'; cases hg'
  | ended _ _ _ _ _ hg' => rw [hg] at hg'; cases hg'
  | rowsEnd _ _ hg' => rw [hg] at hg'; cases hg'
  | row _ _ _ _ hg' => rw [hg] at hg'; cases hg'
  | complete _ _ _ _ _ hg' => rw [hg] at hg'; cases hg'
  | proceed _ _ _ _ hg' => rw [hg] at hg'; cases hg'
  | fail _ _ hg' => rw [hg] at hg'; cases hg'
  | lock _ _ hg' => rw [hg] at hg'; cases hg'
  | unlock _ hg' => rw [hg] at hg'; cases hg'
  | known _ _ _ hg' => rw [hg] at hg'; cases hg'
  | create _ _ _ hg' => rw [hg] at hg'; cases hg'
  | release _ _ hg' => rw [hg] at hg'; cases hg'

/-- If the first frame of the moving goroutine is a test afterwards, it has just looked for the task instance. -/
theorem Move.test_new (m : Move d s g s') (ok : JoinOK d s) {o : Nat} {es : List TaskEntry} {rest : List Fr} (hg' : s'.gs g = .test o es :: rest) :
    ∃ x : TaskEntry, s.gs g = .enter (x :: es) :: rest ∧ s.scheduled o = false ∧ o = (s.inst.findOrCreateTask x.task).2 ∧
      s'.inst = (s.inst.findOrCreateTask x.task).1 := by
  have self : ∀ (S : St) (fs : List Fr), (S.goto g fs).gs g = fs := fun S fs => if_pos rfl
  have no : ∀ {f : Fr} {r : List Fr}, s.gs g = f :: r → r ≠ .test o es :: rest := by
    intro f r hg e
    exact ok.tails g f r hg (.test o es) (by rw [e]; exact List.mem_cons_self ..) o es rfl
  cases m with
  | create x xs rest' hg hs =>
    have h : [Fr.test (s.inst.findOrCreateTask x.task).2 xs] ++ rest' = .test o es :: rest := (self _ _).symm.trans hg'
    cases h
    exact ⟨x, hg, hs, rfl, rfl⟩
  | pop o' q hq hg => have h := (self _ _).symm.trans hg'; cases h
  | over o' r hg => exact absurd ((self _ _).symm.trans hg') (no hg)
  | wait o' r J hg h => exact absurd ((self _ _).symm.trans hg') (no hg)
  | again o' r lg hg => exact absurd ((self _ _).symm.trans hg') (no hg)
  | ended o' ob r fs J hg ho h hf =>
    have h := (self _ _).symm.trans hg'
    cases hf <;> cases h
  | rowsEnd gen r hg => exact absurd ((self _ _).symm.trans hg') (no hg)
  | row gen r rs r' hg h => have h := (self _ _).symm.trans hg'; cases h
  | complete t n es' r J hg h => have h := (self _ _).symm.trans hg'; cases h
  | proceed t n es' r hg => have h := (self _ _).symm.trans hg'; cases h
  | fail r J hg h => exact absurd ((self _ _).symm.trans hg') (no hg)
  | lock es' r hg hl => have h := (self _ _).symm.trans hg'; cases h
  | unlock r hg => exact absurd ((self _ _).symm.trans hg') (no hg)
  | known x xs r hg hs => have h := (self _ _).symm.trans hg'; cases h
  | notReady o' ob es' r J hg ho h => have h := (self _ _).symm.trans hg'; cases h
  | ready o' ob es' r J hg ho h hd => have h := (self _ _).symm.trans hg'; cases h
  | skip o' ob es' es2 n rs r J hg ho h hr he hd => have h := (self _ _).symm.trans hg'; cases h
  | push o' es' r hg => have h := (self _ _).symm.trans hg'; cases h
  | release t r hg => exact absurd ((self _ _).symm.trans hg') (no hg)

/-- The step leaves the objects of old task instances. -/
theorem Move.old_obj (m : Move d s g s') (ho : ObjsOK s) {h o : Nat} {es : List TaskEntry} {rest : List Fr} {ob' : Obj} (hg : s.gs h = .test o es :: rest)
    (hob : s'.inst.objs[o]? = some ob') : ∃ ob, s.inst.objs[o]? = some ob ∧ ob.task = ob'.task := by
  have hlt := ho.frames h (.test o es) o (by rw [hg]; exact List.mem_cons_self ..) rfl
  obtain ⟨ob, h1⟩ : ∃ ob, s.inst.objs[o]? = some ob := ⟨_, List.getElem?_eq_getElem hlt⟩
  obtain ⟨ob2, h2, h3⟩ := m.ext.objs o ob h1
  rw [hob] at h2; cases h2
  exact ⟨ob, h1, h3.symm⟩

theorem JoinOK.step (ok : JoinOK d s) (wf : WellFormed (d.graph false)) (ht : TrOK d s) (ho : ObjsOK s) (lk : LockOK s) (he : EhOK s) (ha : ActOK s)
    (hent : EntOK d s) (m : Move d s g s') : JoinOK d s' := by
  have idle : ∀ {k}, Idle d s k → SrcEnded d s k → Idle d s' k := fun h1 h2 => Idle.step ok wf hent he ha m h1 h2
  have src : ∀ {k}, 1 ≤ timesBegun s.inst.trace k → SrcEnded d s k := by
    intro k h
    rcases ok.phase k with h1 | h1
    · omega
    · exact h1.2.1
  refine ⟨fun h gen rs hf l => ?_, fun h f t hf hr => ?_, fun h f rest hh x hx o es => ?_, fun h o es rest ob hh hob => ?_, fun k => ?_⟩
  · have hle := m.gen_le l
    rcases m.mem_frames hf with hf | ⟨_, hf⟩
    · exact Nat.le_trans (ok.gens h gen rs hf l) hle
    · cases hf with
      | rows => exact hle
      | fewer h3 =>
        rename_i r rest
        exact Nat.le_trans (ok.gens g gen (r :: rs) (by rw [h3]; exact List.mem_cons_self ..) l) hle
      | ref _ _ hn _ => exact absurd rfl (hn gen rs)
      | oldRef _ _ _ hn _ => exact absurd rfl (hn gen rs)
      | other _ hn _ => exact absurd rfl (hn gen rs)
  · have hmono := begun_mono m.ext t.id
    rcases m.mem_frames hf with hf | ⟨_, hf⟩
    · exact Nat.le_trans (ok.refs h f t hf hr) hmono
    · cases hf with
      | rows => cases hr
      | fewer => cases hr
      | test => cases hr
      | other h1 => rw [h1] at hr; cases hr
      | oldRef h0 h1 h2 =>
        rw [h2] at hr; cases hr
        exact Nat.le_trans (ok.refs g _ t h0 h1) hmono
      | ref hs h2 =>
        rename_i ob hn htt
        rw [h2] at hr; cases hr
        rcases source_begun ha hs with h3 | h3
        · omega
        · omega
  · by_cases e : h = g
    · subst e
      obtain ⟨new, rest0, h1, h2, h3, h4⟩ := m.frames
      rw [h1] at hh
      cases new with
      | nil =>
        rcases h2 with ⟨_, h2⟩ | ⟨f0, h2⟩
        · rw [h2] at hh; cases hh
        · have hx' : x ∈ rest0 := by
            have hh : rest0 = f :: rest := hh
            rw [hh]; exact List.mem_cons_of_mem _ hx
          exact ok.tails h f0 rest0 h2 x hx' o es
      | cons y ys =>
        have hh : y :: (ys ++ rest0) = f :: rest := hh
        cases hh
        rcases List.mem_append.1 hx with hx | hx
        · exact h4 x hx o es
        · rcases h2 with ⟨_, h2⟩ | ⟨f0, h2⟩
          · rw [h2] at hx; cases hx
          · exact ok.tails h f0 rest0 h2 x hx o es
    · rw [m.others e] at hh; exact ok.tails h f rest hh x hx o es
  · by_cases e : h = g
    · subst e
      obtain ⟨y, hg, hs, e1, e2⟩ := m.test_new ok hh
      have hid : ob.task.id = y.task.id := by
        have h1 := objTok_create ht.ok y.task y.task.id
        rw [← e1, ← e2, objTok_one hob] at h1
        by_cases h2 : ob.task.id = y.task.id
        · exact h2
        · rw [if_neg h2] at h1; simp at h1
      have hbeg : timesBegun s'.inst.trace ob.task.id = timesBegun s.inst.trace ob.task.id := by rw [e2]; exact begun_create ..
      have htab : s'.inst.tasks.get? ob.task.id = some o := by rw [e2, hid, e1]; exact create_get ..
      rcases ok.phase ob.task.id with h1 | ⟨h1, h2, h3⟩
      · exact .inl ⟨by omega, htab⟩
      · refine .inr ⟨by omega, ?_⟩
        rcases h3 with h3 | h3
        · exfalso
          have hl := holder lk (h := h) (f := .enter (y :: es)) (by rw [hg]; exact List.mem_cons_self ..) rfl
          cases h3 with
          | marked p hp hsp =>
            have h4 := create_keeps s.inst y.task hp
            rw [← e2, htab] at h4
            cases h4
            rw [hs] at hsp; cases hsp
          | pushing h' p es' rest' hl' _ hg' =>
            rw [hl] at hl'; cases hl'
            rw [hg] at hg'; cases hg'
          | skipping h' t fs es' rest' hl' _ hf hg' =>
            rw [hl] at hl'; cases hl'
            rw [hg] at hg'
            cases hf <;> cases hg'
        · exact idle h3 h2
    · rw [m.others e] at hh
      obtain ⟨ob0, ho0, et⟩ := m.old_obj ho hh hob
      have hl := holder lk (h := h) (f := .test o es) (by rw [hh]; exact List.mem_cons_self ..) rfl
      have hbeg : timesBegun s'.inst.trace ob.task.id = timesBegun s.inst.trace ob.task.id := by
        rcases m.begun ob.task.id with h1 | ⟨⟨o1, es1, rest1, ob1, hg1, _⟩, _⟩
        · exact h1
        · have := holder lk (h := g) (f := .test o1 es1) (by rw [hg1]; exact List.mem_cons_self ..) rfl
          rw [hl] at this
          exact absurd (Option.some.inj this) e
      have h0 := ok.test h o es rest ob0 hh ho0
      rw [et] at h0
      rcases h0 with ⟨h1, h2⟩ | ⟨h1, h2⟩
      · refine .inl ⟨by omega, ?_⟩
        rcases m.table h2 with h3 | ⟨t, rest', hg', e'⟩
        · exact h3
        · have h4 := ok.refs g (.release t) t (by rw [hg']; exact List.mem_cons_self ..) rfl
          rw [e'] at h4; omega
      · exact .inr ⟨by omega, idle h2 (src h1)⟩
  · rcases m.begun k with h1 | ⟨hb, h1⟩
    · rcases ok.phase k with h2 | ⟨h2, h3, h4⟩
      · exact .inl (by omega)
      · refine .inr ⟨by omega, h3.step m, ?_⟩
        rcases h4 with h4 | h4
        · by_cases hr : ∃ t rest, s.gs g = .release t :: rest ∧ t.id = k
          · obtain ⟨t, rest, hg, e⟩ := hr
            exact .inr (by rw [← e]; exact idle_release ok ht he hg m)
          · exact .inl (h4.step lk m hr)
        · exact .inr (idle h4 h3)
    · obtain ⟨h2, o, es, rest, hg, htab⟩ := ok.first wf.tasks hent he hb
      refine .inr ⟨by omega, ?_, .inl (busy_begins lk m hb (by omega) hg htab)⟩
      obtain ⟨o', es', rest', ob, hg', hob, e, hd⟩ := hb
      have htask : ob.task = ⟨false, k⟩ := by
        have hbb := he.objs o' ob hob
        cases hob : ob.task with
        | mk b i =>
          rw [hob] at hbb e
          cases hbb; cases e; rfl
      intro l hl
      rw [htask] at hd
      exact Nat.le_trans (decided_ended wf.links ht he (mem_fromLinks.1 hl).1 (hd l hl)) (ends_mono m.ext l.src)

/-- Everything together, for the states reached before the error handler is started. -/
structure BeginOK (d : Def) (s : St) : Prop where
  eh : EhOK s
  act : ActOK s
  ent : EntOK d s
  join : JoinOK d s

theorem BeginOK.reach {prio : Bool} {d : Def} (wf : WellFormed (d.graph false)) {uri : String} {s : St} (h : Reach prio d uri s) (hn : NoHandler d s) :
    BeginOK d s := by
  induction h with
  | init => exact ⟨EhOK.init d uri, ActOK.init d uri, EntOK.init d uri, JoinOK.init d uri⟩
  | step hr hs ih =>
    have ht := TrOK.reach hr
    obtain ⟨g, m⟩ := step_move ht hs hn
    rename_i s0 s1 l
    have hn' : NoHandler d s0 := by
      rcases hn with h | h
      · left
        cases hx : s0.inst.handling with
        | false => rfl
        | true => rw [m.ext.handling hx] at h; cases h
      · exact .inr h
    have ok := ih hn'
    have ho := ObjsOK.reach hr
    exact ⟨ok.eh.step m, ok.act.step ho m, ok.ent.step ho ht ok.eh m, ok.join.step wf ht ho (LockOK.reach hr) ok.eh ok.act ok.ent m⟩

end Flow.Conc
