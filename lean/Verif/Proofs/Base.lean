import Verif.Proofs.Frame
import Verif.Proofs.Behavior
import Verif.Spec.Trace

/-
Invariants of every run, whatever the environment and the definitions: the trace of every instance is in order, link
statuses agree with the trace, work items refer to tasks that became ready, identifiers are unique.
-/

namespace Flow
open Spec

/-! ### Instances -/

/-- The tables of an instance are what its trace says. -/
structure Mirror (I : Inst) : Prop where
  link : ∀ l, I.links.get? l = liveLink I.trace l
  task : ∀ k, I.tasks.get? k = liveTask I.trace k
  stat : ∀ (o : Nat) ob, I.objs[o]? = some ob → ob.status = lastStatus I.trace o
  flow : I.status = lastFlow I.trace
  added : ∀ o t, .taskAdded o t ∈ I.trace → ∃ ob, I.objs[o]? = some ob ∧ ob.task.id = t
  posts : I.posted.map Post.ev = I.trace.filter isStatus
  nodup : I.tasks.keys.Nodup ∧ I.links.keys.Nodup

/-- The invariant of one instance. -/
structure InstOK (I : Inst) : Prop where
  trace : TraceOK I.defn I.trace
  links : ∀ l, I.linkSt l = lastLink I.trace l
  eh : .ehStart ∈ I.trace → I.handling = true
  tasks : ∀ k o, I.tasks.get? k = some o → ∃ ob, I.objs[o]? = some ob ∧ ob.task.id = k
  mirror : Mirror I

/-- How an instance can evolve. -/
structure Ext (I I' : Inst) : Prop where
  defn : I'.defn = I.defn
  subflowId : I'.subflowId = I.subflowId
  host : I'.host = I.host
  objs : ∀ (p : Nat) ob, I.objs[p]? = some ob → ∃ ob', I'.objs[p]? = some ob' ∧ ob'.task = ob.task
  handling : I.handling = true → I'.handling = true
  force : I.force = true → I'.force = true
  trace : ∃ evs, I'.trace = evs ++ I.trace
  posted : ∃ ps, I'.posted = ps ++ I.posted
  ok : InstOK I → InstOK I'

namespace Ext

theorem refl (I : Inst) : Ext I I := ⟨rfl, rfl, rfl, fun _ ob h => ⟨ob, h, rfl⟩, id, id, ⟨[], rfl⟩, ⟨[], rfl⟩, id⟩

theorem trans {I J K : Inst} (h : Ext I J) (g : Ext J K) : Ext I K := by
  refine ⟨g.defn.trans h.defn, g.subflowId.trans h.subflowId, g.host.trans h.host, fun p ob hp => ?_,
    fun x => g.handling (h.handling x), fun x => g.force (h.force x), ?_, ?_, fun x => g.ok (h.ok x)⟩
  · obtain ⟨ob1, h1, h2⟩ := h.objs p ob hp
    obtain ⟨ob2, h3, h4⟩ := g.objs p ob1 h1
    exact ⟨ob2, h3, h4.trans h2⟩
  · obtain ⟨a, ha⟩ := h.trace
    obtain ⟨b, hb⟩ := g.trace
    exact ⟨b ++ a, by rw [hb, ha, List.append_assoc]⟩
  · obtain ⟨a, ha⟩ := h.posted
    obtain ⟨b, hb⟩ := g.posted
    exact ⟨b ++ a, by rw [hb, ha, List.append_assoc]⟩

theorem mem {I J : Inst} (h : Ext I J) {ev : Ev} (hm : ev ∈ I.trace) : ev ∈ J.trace := by
  obtain ⟨a, ha⟩ := h.trace
  rw [ha]; exact List.mem_append_right _ hm

theorem memp {I J : Inst} (h : Ext I J) {p : Post} (hm : p ∈ I.posted) : p ∈ J.posted := by
  obtain ⟨a, ha⟩ := h.posted
  rw [ha]; exact List.mem_append_right _ hm

end Ext

theorem modify_objs {objs : List Obj} {o : Nat} {f : Obj → Obj} (ht : ∀ x, (f x).task = x.task) (p : Nat) (ob : Obj)
    (h : objs[p]? = some ob) : ∃ ob', (objs.modify o f)[p]? = some ob' ∧ ob'.task = ob.task := by
  rw [List.getElem?_modify]
  split
  · exact ⟨f ob, by simp [h], ht ob⟩
  · exact ⟨ob, by simp [h], rfl⟩

theorem modify_stat {objs : List Obj} {o : Nat} {f : Obj → Obj} (ht : ∀ x, (f x).status = x.status) (p : Nat) (ob : Obj)
    (h : (objs.modify o f)[p]? = some ob) : ∃ ob', objs[p]? = some ob' ∧ ob'.status = ob.status := by
  rw [List.getElem?_modify] at h
  cases hp : objs[p]? with
  | none => rw [hp] at h; simp at h
  | some x =>
    rw [hp] at h
    refine ⟨x, rfl, ?_⟩
    split at h <;> simp at h <;> subst h
    · exact (ht x).symm
    · rfl

theorem tasks_of_objs {I : Inst} {objs' : List Obj}
    (h : ∀ (p : Nat) ob, I.objs[p]? = some ob → ∃ ob', objs'[p]? = some ob' ∧ ob'.task = ob.task)
    (ht : ∀ k o, I.tasks.get? k = some o → ∃ ob, I.objs[o]? = some ob ∧ ob.task.id = k) :
    ∀ k o, I.tasks.get? k = some o → ∃ ob, objs'[o]? = some ob ∧ ob.task.id = k := by
  intro k o hk
  obtain ⟨ob, h1, h2⟩ := ht k o hk
  obtain ⟨ob', h3, h4⟩ := h o ob h1
  exact ⟨ob', h3, by rw [h4]; exact h2⟩

theorem added_push {ev : Ev} {tr : List Ev} {objs objs' : List Obj} (hev : ∀ o t, ev ≠ .taskAdded o t)
    (ho : ∀ (p : Nat) ob, objs[p]? = some ob → ∃ ob', objs'[p]? = some ob' ∧ ob'.task = ob.task)
    (h : ∀ o t, .taskAdded o t ∈ tr → ∃ ob, objs[o]? = some ob ∧ ob.task.id = t) (o : Nat) (t : TaskId)
    (hm : .taskAdded o t ∈ ev :: tr) : ∃ ob, objs'[o]? = some ob ∧ ob.task.id = t := by
  rcases List.mem_cons.1 hm with h1 | h1
  · exact absurd h1.symm (hev o t)
  · obtain ⟨ob, h2, h3⟩ := h o t h1
    obtain ⟨ob', h4, h5⟩ := ho o ob h2
    exact ⟨ob', h4, by rw [h5]; exact h3⟩

theorem objs_refl (objs : List Obj) : ∀ (p : Nat) ob, objs[p]? = some ob → ∃ ob', objs[p]? = some ob' ∧ ob'.task = ob.task :=
  fun _ ob h => ⟨ob, h, rfl⟩

/-- Events that the order conditions and the link statuses do not look at. -/
def Ev.plain : Ev → Bool
  | .taskAdded .. | .taskRemoved _ | .linkAdded _ | .cleared => true
  | .taskStatus _ _ s => s = .entered
  | _ => false

theorem plain_evOK {d : Def} {ev : Ev} (h : ev.plain = true) (pre : List Ev) : EvOK d ev pre := by
  cases ev <;> simp [Ev.plain] at h <;> simp [EvOK]
  rename_i o t s
  cases s <;> simp_all

theorem plain_lastLink {ev : Ev} (h : ev.plain = true) (pre : List Ev) (l : LinkId) :
    lastLink (ev :: pre) l = lastLink pre l := by
  cases ev <;> simp [Ev.plain] at h <;> simp [lastLink]

theorem plain_ne_eh {ev : Ev} (h : ev.plain = true) : ev ≠ .ehStart := by
  cases ev <;> simp [Ev.plain] at h <;> simp

namespace Ext

theorem of_quiet {I I' : Inst} (hd : I'.defn = I.defn) (hs : I'.subflowId = I.subflowId) (hh : I'.host = I.host)
    (ho : ∀ (p : Nat) ob, I.objs[p]? = some ob → ∃ ob', I'.objs[p]? = some ob' ∧ ob'.task = ob.task)
    (hhd : I'.handling = I.handling ∨ I'.handling = true) (hf : I.force = true → I'.force = true) (htr : I'.trace = I.trace)
    (hl : I'.links = I.links) (ht : I'.tasks = I.tasks) (hst : I'.status = I.status) (hps : I'.posted = I.posted)
    (hos : ∀ (p : Nat) ob, I'.objs[p]? = some ob → ∃ ob', I.objs[p]? = some ob' ∧ ob'.status = ob.status) : Ext I I' := by
  refine ⟨hd, hs, hh, ho, fun h => ?_, hf, ⟨[], by simp [htr]⟩, ⟨[], by simp [hps]⟩, fun ok => ⟨?_, fun l => ?_, fun h => ?_, ?_, ?_⟩⟩
  · rcases hhd with h1 | h1
    · rw [h1, h]
    · exact h1
  · rw [hd, htr]; exact ok.trace
  · rw [htr, ← ok.links l]; simp [Inst.linkSt, hl]
  · rw [htr] at h
    rcases hhd with h1 | h1
    · rw [h1]; exact ok.eh h
    · exact h1
  · intro k o hk
    obtain ⟨ob, h1, h2⟩ := ok.tasks k o (by rw [← ht]; exact hk)
    obtain ⟨ob', h3, h4⟩ := ho o ob h1
    exact ⟨ob', h3, by rw [h4]; exact h2⟩
  · refine ⟨fun l => ?_, fun k => ?_, fun p ob hp => ?_, ?_, fun o t hm => ?_, by rw [hps, htr]; exact ok.mirror.posts, by rw [ht, hl]; exact ok.mirror.nodup⟩
    · rw [hl, htr]; exact ok.mirror.link l
    · rw [ht, htr]; exact ok.mirror.task k
    · obtain ⟨ob', h1, h2⟩ := hos p ob hp
      rw [← h2, htr]; exact ok.mirror.stat p ob' h1
    · rw [hst, htr]; exact ok.mirror.flow
    · rw [htr] at hm
      obtain ⟨ob, h1, h2⟩ := ok.mirror.added o t hm
      obtain ⟨ob', h3, h4⟩ := ho o ob h1
      exact ⟨ob', h3, by rw [h4]; exact h2⟩

theorem modO {I : Inst} {o : Nat} {f : Obj → Obj} (ht : ∀ x, (f x).task = x.task) (hs : ∀ x, (f x).status = x.status) :
    Ext I (I.modO o f) :=
  of_quiet rfl rfl rfl (fun p ob h => modify_objs ht p ob h) (Or.inl rfl) id rfl rfl rfl rfl rfl (fun p ob h => modify_stat hs p ob h)

theorem attrs {I : Inst} (a : AMap String Val) : Ext I { I with attrs := a } :=
  of_quiet rfl rfl rfl (fun _ ob h => ⟨ob, h, rfl⟩) (Or.inl rfl) id rfl rfl rfl rfl rfl (fun _ ob h => ⟨ob, h, rfl⟩)

theorem setValue {I : Inst} (k : String) (v : Val) : Ext I (I.setValue k v) := attrs _

theorem clear {I : Inst} : Ext I I.clearTasks := by
  refine ⟨rfl, rfl, rfl, fun _ ob h => ⟨ob, h, rfl⟩, id, id, ⟨[_], rfl⟩, ⟨[], rfl⟩, fun ok => ⟨⟨trivial, ok.trace⟩, ok.links, fun he => ?_, ?_, ?_⟩⟩
  · rcases List.mem_cons.1 he with h1 | h1
    · cases h1
    · exact ok.eh h1
  · intro k o hk; simp [Inst.clearTasks] at hk
  · exact ⟨ok.mirror.link, fun k => rfl, ok.mirror.stat, ok.mirror.flow, added_push (by simp) (objs_refl _) ok.mirror.added, ok.mirror.posts, List.nodup_nil, ok.mirror.nodup.2⟩

theorem setHandling {I : Inst} : Ext I { I with handling := true } :=
  of_quiet rfl rfl rfl (fun _ ob h => ⟨ob, h, rfl⟩) (Or.inr rfl) id rfl rfl rfl rfl rfl (fun _ ob h => ⟨ob, h, rfl⟩)

theorem retError {I : Inst} (er : Option Err) : Ext I { I with returnError := er } :=
  of_quiet rfl rfl rfl (fun _ ob h => ⟨ob, h, rfl⟩) (Or.inl rfl) id rfl rfl rfl rfl rfl (fun _ ob h => ⟨ob, h, rfl⟩)

theorem setFlowStatus {I : Inst} (s : FlowStatus) (hs : s ≠ .notStarted) : Ext I (I.setFlowStatus s) := by
  refine ⟨rfl, rfl, rfl, fun _ ob h => ⟨ob, h, rfl⟩, id, id, ⟨[_], rfl⟩, ⟨[_], rfl⟩, fun ok => ⟨⟨hs, ok.trace⟩, ok.links, fun he => ?_, ok.tasks, ?_⟩⟩
  · rcases List.mem_cons.1 he with h1 | h1
    · cases h1
    · exact ok.eh h1
  · exact ⟨ok.mirror.link, ok.mirror.task, ok.mirror.stat, rfl, added_push (by simp) (objs_refl _) ok.mirror.added, congrArg (Ev.flowStatus s :: ·) ok.mirror.posts, ok.mirror.nodup⟩

/-- Setting a task status, if the event is in order. -/
theorem setTaskStatus {I : Inst} {o : Nat} {s : TaskStatus}
    (h : ∀ ob, I.objs[o]? = some ob → InstOK I → EvOK I.defn (.taskStatus o ob.task s) I.trace) : Ext I (I.setTaskStatus o s) := by
  unfold Inst.setTaskStatus
  split
  · exact refl _
  · rename_i ob hob
    have hobjs := modify_objs (objs := I.objs) (o := o) (f := fun x => { x with status := s }) (fun _ => rfl)
    refine ⟨rfl, rfl, rfl, hobjs, id, id, ⟨[_], rfl⟩, ⟨[_], rfl⟩, fun ok => ⟨⟨h ob hob ok, ok.trace⟩, fun l => ?_, fun he => ?_, ?_, ?_⟩⟩
    · simp only [lastLink]; exact ok.links l
    · rcases List.mem_cons.1 he with h1 | h1
      · cases h1
      · exact ok.eh h1
    · exact tasks_of_objs (I := I) hobjs ok.tasks
    · refine ⟨ok.mirror.link, ok.mirror.task, fun p ob' hp => ?_, ok.mirror.flow, added_push (by simp) hobjs ok.mirror.added, congrArg (Ev.taskStatus o ob.task s :: ·) ok.mirror.posts, ok.mirror.nodup⟩
      simp only [List.getElem?_modify, lastStatus] at hp ⊢
      split
      · rename_i h1; subst h1
        rw [hob] at hp; simp at hp; rw [← hp]
      · rename_i h1
        exact ok.mirror.stat p ob' (by simpa [h1] using hp)

theorem enter {I : Inst} {o : Nat} : Ext I (I.setTaskStatus o .entered) :=
  setTaskStatus fun ob _ _ => plain_evOK (by simp [Ev.plain]) _

/-- A task that has become ready may wait, be done or fail. -/
theorem setTaskStatus' {I : Inst} {o : Nat} {s : TaskStatus} (hs : s = .waiting ∨ s = .done ∨ s = .failed)
    (h : ∀ ob, I.objs[o]? = some ob → .taskStatus o ob.task .ready ∈ I.trace) : Ext I (I.setTaskStatus o s) :=
  setTaskStatus fun ob ho _ => by rcases hs with hs | hs | hs <;> subst hs <;> exact h ob ho

theorem findOrCreateTask {I : Inst} (t : TaskRef) : Ext I (I.findOrCreateTask t).1 := by
  unfold Inst.findOrCreateTask
  split
  · exact refl _
  · have hobjs : ∀ (p : Nat) ob, I.objs[p]? = some ob → ∃ ob', (I.objs ++ [({ task := t } : Obj)])[p]? = some ob' ∧ ob'.task = ob.task := by
      intro p ob hp
      have : p < I.objs.length := (List.getElem?_eq_some_iff.1 hp).1
      exact ⟨ob, by rw [List.getElem?_append_left this, hp], rfl⟩
    refine ⟨rfl, rfl, rfl, hobjs, id, id, ⟨[_], rfl⟩, ⟨[], rfl⟩, fun ok => ⟨⟨trivial, ok.trace⟩, fun l => ?_, fun he => ?_, ?_, ?_⟩⟩
    · simp only [lastLink]; exact ok.links l
    · rcases List.mem_cons.1 he with h1 | h1
      · cases h1
      · exact ok.eh h1
    · intro k o hk
      simp only [AMap.get?_set] at hk
      split at hk
      · rename_i hk1
        simp at hk; subst hk
        exact ⟨{ task := t }, by simp, hk1⟩
      · obtain ⟨ob, h1, h2⟩ := ok.tasks k o hk
        obtain ⟨ob', h3, h4⟩ := hobjs o ob h1
        exact ⟨ob', h3, by rw [h4]; exact h2⟩
    · refine ⟨ok.mirror.link, fun k => ?_, fun p ob hp => ?_, ok.mirror.flow, fun o k hm => ?_, ok.mirror.posts, AMap.nodup_keys_set ok.mirror.nodup.1 _ _, ok.mirror.nodup.2⟩
      rotate_right
      · rcases List.mem_cons.1 hm with h1 | h1
        · cases h1
          exact ⟨{ task := t }, by simp, rfl⟩
        · obtain ⟨ob, h2, h3⟩ := ok.mirror.added o k h1
          obtain ⟨ob', h4, h5⟩ := hobjs o ob h2
          exact ⟨ob', h4, by rw [h5]; exact h3⟩
      · simp only [AMap.get?_set, liveTask]
        split
        · rfl
        · exact ok.mirror.task k
      · simp only [lastStatus]
        split
        · rename_i h1; subst h1
          simp at hp; rw [← hp]
        · rename_i h1
          rw [List.getElem?_append] at hp
          split at hp
          · exact ok.mirror.stat p ob hp
          · have h2 : p - I.objs.length ≠ 0 := by omega
            cases h3 : p - I.objs.length with
            | zero => exact absurd h3 h2
            | succ n => rw [h3] at hp; simp at hp

theorem findLink {I : Inst} (l : LinkId) : Ext I (I.findLink l) := by
  unfold Inst.findLink
  split
  · exact refl _
  · rename_i hn
    refine ⟨rfl, rfl, rfl, fun _ ob h => ⟨ob, h, rfl⟩, id, id, ⟨[_], rfl⟩, ⟨[], rfl⟩, fun ok => ⟨⟨trivial, ok.trace⟩, fun k => ?_, fun he => ?_, ok.tasks, ?_⟩⟩
    · simp only [lastLink]
      rw [← ok.links k]
      simp only [Inst.linkSt, AMap.get?_set]
      split
      · rename_i h; subst h; simp [hn]
      · rfl
    · rcases List.mem_cons.1 he with h1 | h1
      · cases h1
      · exact ok.eh h1
    · refine ⟨fun k => ?_, ok.mirror.task, ok.mirror.stat, ok.mirror.flow, added_push (by simp) (objs_refl _) ok.mirror.added, ok.mirror.posts, ok.mirror.nodup.1, AMap.nodup_keys_set ok.mirror.nodup.2 _ _⟩
      simp only [AMap.get?_set, liveLink]
      split
      · rfl
      · exact ok.mirror.link k

theorem findLinks {I : Inst} (ls : List LinkDef) : Ext I (I.findLinks ls) := by
  unfold Inst.findLinks
  induction ls generalizing I with
  | nil => exact refl _
  | cons l ls ih => exact (findLink (I := I) l.id).trans ih

theorem release {I : Inst} (t : TaskRef) : Ext I (I.release t) := by
  unfold Inst.release
  have h0 : Ext I { I with tasks := I.tasks.del t.id, trace := .taskRemoved t.id :: I.trace } := by
    refine ⟨rfl, rfl, rfl, fun _ ob h => ⟨ob, h, rfl⟩, id, id, ⟨[_], rfl⟩, ⟨[], rfl⟩, fun ok => ⟨⟨trivial, ok.trace⟩, ok.links, fun he => ?_, ?_, ?_⟩⟩
    · rcases List.mem_cons.1 he with h1 | h1
      · cases h1
      · exact ok.eh h1
    · intro k o hk
      simp only [AMap.get?_del] at hk
      split at hk
      · simp at hk
      · exact ok.tasks k o hk
    · refine ⟨ok.mirror.link, fun k => ?_, ok.mirror.stat, ok.mirror.flow, added_push (by simp) (objs_refl _) ok.mirror.added, ok.mirror.posts, AMap.nodup_keys_del ok.mirror.nodup.1 _, ok.mirror.nodup.2⟩
      simp only [AMap.get?_del, liveTask]
      split
      · rfl
      · exact ok.mirror.task k
  generalize ({ I with tasks := I.tasks.del t.id, trace := .taskRemoved t.id :: I.trace } : Inst) = J at h0
  generalize I.defn.fromLinks t = ls
  induction ls generalizing J with
  | nil => exact h0
  | cons l ls ih =>
    refine ih _ (h0.trans ?_)
    refine ⟨rfl, rfl, rfl, fun _ ob h => ⟨ob, h, rfl⟩, id, id, ⟨[_], rfl⟩, ⟨[], rfl⟩, fun ok => ⟨⟨trivial, ok.trace⟩, fun k => ?_, fun he => ?_, ok.tasks, ?_⟩⟩
    · simp only [lastLink]
      rw [← ok.links k]
      simp only [Inst.linkSt, AMap.get?_del]
      split <;> simp_all
    · rcases List.mem_cons.1 he with h1 | h1
      · cases h1
      · exact ok.eh h1
    · refine ⟨fun k => ?_, ok.mirror.task, ok.mirror.stat, ok.mirror.flow, added_push (by simp) (objs_refl _) ok.mirror.added, ok.mirror.posts, ok.mirror.nodup.1, AMap.nodup_keys_del ok.mirror.nodup.2 _⟩
      simp only [AMap.get?_del, liveLink]
      split
      · rfl
      · exact ok.mirror.link k

theorem setLink {I : Inst} {k : LinkId} {s : LinkStatus} (h : InstOK I → EvOK I.defn (.linkStatus k s) I.trace) :
    Ext I (I.setLink k s) := by
  refine ⟨rfl, rfl, rfl, fun _ ob h => ⟨ob, h, rfl⟩, id, id, ⟨[_], rfl⟩, ⟨[], rfl⟩, fun ok => ⟨⟨h ok, ok.trace⟩, fun l => ?_, fun he => ?_, ok.tasks, ?_⟩⟩
  · simp only [Inst.setLink, Inst.linkSt, lastLink, AMap.get?_set]
    split
    · simp
    · exact ok.links l
  · rcases List.mem_cons.1 he with h1 | h1
    · cases h1
    · exact ok.eh h1
  · refine ⟨fun l => ?_, ok.mirror.task, ok.mirror.stat, ok.mirror.flow, added_push (by simp) (objs_refl _) ok.mirror.added, ok.mirror.posts, ok.mirror.nodup.1, AMap.nodup_keys_set ok.mirror.nodup.2 _ _⟩
    simp only [Inst.setLink, AMap.get?_set, liveLink]
    split
    · rfl
    · exact ok.mirror.link l

/-- Evaluations. -/
theorem same {o : Nat} {I I' : Inst} (h : SameInst o I I')
    (hr : ∀ ob, I.objs[o]? = some ob → .taskStatus o ob.task .ready ∈ I.trace) : Ext I I' := by
  have hobjs : ∀ (p : Nat) ob, I.objs[p]? = some ob → ∃ ob', I'.objs[p]? = some ob' ∧ ob'.task = ob.task := by
    intro p ob hp
    obtain ⟨ob', h1, h2, _⟩ := h.task_eq' hp
    exact ⟨ob', h1, h2⟩
  obtain ⟨evs, htr, hev⟩ := h.trace
  have key : ∀ evs : List Ev, (∀ ev ∈ evs, ∃ ob, I.objs[o]? = some ob ∧ (ev = .evalAct o ob.task ∨ ev = .postAct o ob.task)) →
      InstOK I → TraceOK I.defn (evs ++ I.trace) ∧ (∀ l, lastLink (evs ++ I.trace) l = lastLink I.trace l) ∧
      (.ehStart ∈ evs ++ I.trace → .ehStart ∈ I.trace) ∧ (∀ l, liveLink (evs ++ I.trace) l = liveLink I.trace l) ∧
      (∀ k, liveTask (evs ++ I.trace) k = liveTask I.trace k) ∧ (∀ p, lastStatus (evs ++ I.trace) p = lastStatus I.trace p) ∧
      lastFlow (evs ++ I.trace) = lastFlow I.trace ∧ (∀ o t, .taskAdded o t ∈ evs ++ I.trace → .taskAdded o t ∈ I.trace) ∧
      (evs ++ I.trace).filter isStatus = I.trace.filter isStatus := by
    intro evs hev ok
    induction evs with
    | nil => exact ⟨ok.trace, fun _ => rfl, id, fun _ => rfl, fun _ => rfl, fun _ => rfl, rfl, fun _ _ h => h, rfl⟩
    | cons ev evs ih =>
      obtain ⟨h1, h2, h3, h4, h5, h6, h7, h8, h9⟩ := ih (fun x hx => hev x (List.mem_cons_of_mem _ hx))
      obtain ⟨ob, hob, hx⟩ := hev ev (List.mem_cons_self ..)
      have hm := List.mem_append_right evs (hr ob hob)
      refine ⟨⟨?_, h1⟩, fun l => ?_, fun he => ?_, fun l => ?_, fun k => ?_, fun p => ?_, ?_, fun o t ht => ?_, ?_⟩
      · rcases hx with hx | hx <;> subst hx <;> exact hm
      · rcases hx with hx | hx <;> subst hx <;> simp only [List.cons_append, lastLink] <;> exact h2 l
      · rcases hx with hx | hx <;> subst hx <;> simp at he <;> exact h3 (by simpa using he)
      · rcases hx with hx | hx <;> subst hx <;> simp only [List.cons_append, liveLink] <;> exact h4 l
      · rcases hx with hx | hx <;> subst hx <;> simp only [List.cons_append, liveTask] <;> exact h5 k
      · rcases hx with hx | hx <;> subst hx <;> simp only [List.cons_append, lastStatus] <;> exact h6 p
      · rcases hx with hx | hx <;> subst hx <;> simp only [List.cons_append, lastFlow] <;> exact h7
      · rcases hx with hx | hx <;> subst hx <;> simp at ht <;> exact h8 o t (by simpa using ht)
      · rcases hx with hx | hx <;> subst hx <;> simp only [List.cons_append, List.filter_cons, isStatus] <;> exact h9
  refine ⟨h.defn, h.subflowId, h.host, hobjs, fun x => by rw [h.handling]; exact x, h.force, ⟨evs, htr⟩, ⟨[], h.posted⟩, fun ok => ?_⟩
  obtain ⟨k1, k2, k3, k4, k5, k6, k7, k8, k9⟩ := key evs hev ok
  refine ⟨by rw [h.defn, htr]; exact k1, fun l => ?_, fun he => ?_, fun k p hk => ?_, ?_⟩
  · rw [htr, k2 l, ← ok.links l]; simp [Inst.linkSt, h.links]
  · rw [h.handling]; rw [htr] at he; exact ok.eh (k3 he)
  · rw [h.tasks] at hk
    exact tasks_of_objs hobjs ok.tasks k p hk
  · refine ⟨fun l => ?_, fun k => ?_, fun p ob hp => ?_, ?_, fun q t hm => ?_, by rw [h.posted, htr, k9]; exact ok.mirror.posts, by rw [h.tasks, h.links]; exact ok.mirror.nodup⟩
    · rw [h.links, htr, k4]; exact ok.mirror.link l
    · rw [h.tasks, htr, k5]; exact ok.mirror.task k
    · obtain ⟨ob', h1, _, h2⟩ := h.task_eq hp
      rw [← h2, htr, k6]; exact ok.mirror.stat p ob' h1
    · rw [h.status, htr, k7]; exact ok.mirror.flow
    · rw [htr] at hm
      obtain ⟨ob, h1, h2⟩ := ok.mirror.added q t (k8 q t hm)
      obtain ⟨ob', h3, h4⟩ := hobjs q ob h1
      exact ⟨ob', h3, by rw [h4]; exact h2⟩

end Ext

/-! ### Rows of link decisions -/

theorem evOK_link_mono {d : Def} {k : LinkId} {st : LinkStatus} {pre evs : List Ev}
    (h : EvOK d (.linkStatus k st) pre) : EvOK d (.linkStatus k st) (evs ++ pre) := by
  obtain ⟨t, o, l, h1, h2, h3⟩ := h
  refine ⟨t, o, l, h1, h2, ?_⟩
  cases st with
  | unset => exact h3
  | «false» => exact h3.imp (List.mem_append_right _) (List.mem_append_right _)
  | «true» =>
    dsimp only at h3 ⊢
    split at h3
    · rw [if_pos (by assumption)]; exact List.mem_append_right _ h3
    · rw [if_neg (by assumption)]; exact List.mem_append_right _ h3
  | skipped => exact List.mem_append_right _ h3

theorem Ext.applyRows {I : Inst} {rows : List (LinkDef × LinkStatus × Nat)}
    (h : ∀ r ∈ rows, EvOK I.defn (.linkStatus r.1.id r.2.1) I.trace) : Ext I (I.applyRows rows) := by
  unfold Inst.applyRows
  induction rows generalizing I with
  | nil => exact refl _
  | cons r rows ih =>
    have h1 : Ext I (I.setLink r.1.id r.2.1) := setLink fun _ => h r (List.mem_cons_self ..)
    refine h1.trans (ih ?_)
    intro r' hr'
    have := h r' (List.mem_cons_of_mem _ hr')
    exact evOK_link_mono (evs := [_]) this

theorem doneLoop_rows {prio : Bool} {ev : LinkDef → ExprOut} {ls : List LinkDef} {a : DoneAcc} {L : List LinkDef}
    (hsub : ∀ l ∈ ls, l ∈ L)
    (ha : ∀ r ∈ a.rows, r.1 ∈ L ∧ (r.2.1 = .true ∧ r.1.type ≠ .error ∨ r.2.1 = .false))
    (hot : ∀ i, a.other = some i → ∃ r, a.rows[i]? = some r ∧ r.1.type ≠ .error) :
    match doneLoop prio ev a ls with
    | .error (_, a') => ∀ r ∈ a'.rows, r.1 ∈ L ∧ (r.2.1 = .true ∧ r.1.type ≠ .error ∨ r.2.1 = .false)
    | .ok a' => (∀ r ∈ a'.rows, r.1 ∈ L ∧ (r.2.1 = .true ∧ r.1.type ≠ .error ∨ r.2.1 = .false)) ∧
        ∀ i, a'.other = some i → ∃ r, a'.rows[i]? = some r ∧ r.1.type ≠ .error := by
  induction ls generalizing a with
  | nil => exact ⟨ha, hot⟩
  | cons l ls ih =>
    have hl := hsub l (List.mem_cons_self ..)
    have hsub' : ∀ x ∈ ls, x ∈ L := fun x hx => hsub x (List.mem_cons_of_mem _ hx)
    have hrows : ∀ (st : LinkStatus) (c : Nat), (st = .true ∧ l.type ≠ .error ∨ st = .false) →
        ∀ r ∈ a.rows ++ [(l, st, c)], r.1 ∈ L ∧ (r.2.1 = .true ∧ r.1.type ≠ .error ∨ r.2.1 = .false) := by
      intro st c hst r hr
      rcases List.mem_append.1 hr with h | h
      · exact ha r h
      · simp at h; subst h; exact ⟨hl, hst⟩
    have hoth : ∀ (x : LinkDef × LinkStatus × Nat) i, a.other = some i →
        ∃ r, (a.rows ++ [x])[i]? = some r ∧ r.1.type ≠ .error := by
      intro x i hi
      obtain ⟨r, h1, h2⟩ := hot i hi
      have := (List.getElem?_eq_some_iff.1 h1).1
      exact ⟨r, by rw [List.getElem?_append_left this, h1], h2⟩
    simp only [doneLoop]
    cases hd : doneIter prio ev a l with
    | error m => exact hrows _ _ (Or.inr rfl)
    | ok a' =>
      dsimp only
      apply ih hsub'
      · unfold doneIter at hd
        split at hd
        · cases hd; exact hrows _ _ (Or.inr rfl)
        · cases hd; exact hrows _ _ (Or.inr rfl)
        · cases hd; rename_i ht; exact hrows _ _ (Or.inl ⟨rfl, by simp [ht]⟩)
        · cases hd; rename_i ht; exact hrows _ _ (Or.inl ⟨rfl, by simp [ht]⟩)
        · rename_i ht
          split at hd
          · cases hd
          · cases hd; exact hrows _ _ (Or.inl ⟨rfl, by simp [ht]⟩)
          · cases hd; exact hrows _ _ (Or.inr rfl)
      · unfold doneIter at hd
        split at hd
        · cases hd; exact hoth _
        · cases hd
          rename_i ht
          intro i hi
          simp at hi
          subst hi
          exact ⟨(l, .false, 4), by simp, by simp [ht]⟩
        · cases hd; exact hoth _
        · cases hd; exact hoth _
        · split at hd
          · cases hd
          · cases hd; exact hoth _
          · cases hd; exact hoth _

theorem doneRows_rows (prio : Bool) (ev : LinkDef → ExprOut) (ls : List LinkDef) :
    match doneRows prio ev ls with
    | .error (_, rows) => ∀ r ∈ rows, r.1 ∈ ls ∧ (r.2.1 = .true ∧ r.1.type ≠ .error ∨ r.2.1 = .false)
    | .ok rows => ∀ r ∈ rows, r.1 ∈ ls ∧ (r.2.1 = .true ∧ r.1.type ≠ .error ∨ r.2.1 = .false) := by
  have h := doneLoop_rows (prio := prio) (ev := ev) (ls := ls) (a := {}) (L := ls) (fun _ h => h) (by simp) (by simp)
  unfold doneRows
  cases hd : doneLoop prio ev {} ls with
  | error p => rw [hd] at h; exact h
  | ok a =>
    rw [hd] at h
    obtain ⟨h1, h2⟩ := h
    dsimp only
    unfold doneOtherwise
    split
    · rename_i i hi
      split
      · intro r hr
        obtain ⟨k, hk⟩ := List.mem_iff_getElem?.1 hr
        rw [List.getElem?_modify] at hk
        split at hk
        · rename_i hik
          subst hik
          obtain ⟨r', h3, h4⟩ := h2 _ hi
          rw [h3] at hk
          simp at hk
          subst hk
          exact ⟨(h1 r' (List.mem_of_getElem? h3)).1, Or.inl ⟨rfl, h4⟩⟩
        · simp at hk
          exact h1 r (List.mem_of_getElem? hk)
      · exact h1
    · exact h1

theorem getElem?_setTaskStatus {I : Inst} {o : Nat} {st : TaskStatus} {ob : Obj} (h : I.objs[o]? = some ob) :
    (I.setTaskStatus o st).trace = .taskStatus o ob.task st :: I.trace ∧
    (I.setTaskStatus o st).objs[o]? = some { ob with status := st } := by
  unfold Inst.setTaskStatus
  rw [h]
  simp [h]

theorem Ext.doneTask {I : Inst} {prio : Bool} {ev : LinkDef → ExprOut} {o : Nat} {ob : Obj}
    (ho : I.objs[o]? = some ob) (hr : .taskStatus o ob.task .ready ∈ I.trace) : Ext I (I.doneTask prio ev o ob.task).1 := by
  unfold Inst.doneTask
  have h1 : Ext I (I.findLinks (I.defn.toLinks ob.task)) := findLinks _
  obtain ⟨ob', ho', ht⟩ := h1.objs o ob ho
  have h2 : Ext I ((I.findLinks (I.defn.toLinks ob.task)).setTaskStatus o .done) :=
    h1.trans (setTaskStatus' (Or.inr (Or.inl rfl)) fun ob2 ho2 => by rw [ho'] at ho2; cases ho2; rw [ht]; exact h1.mem hr)
  have htr := (getElem?_setTaskStatus (st := .done) ho').1
  rw [ht] at htr
  have hm : .taskStatus o ob.task .done ∈ ((I.findLinks (I.defn.toLinks ob.task)).setTaskStatus o .done).trace := by
    rw [htr]; simp
  have hrows := doneRows_rows prio ev (I.defn.toLinks ob.task)
  have key : ∀ rows : List (LinkDef × LinkStatus × Nat),
      (∀ r ∈ rows, r.1 ∈ I.defn.toLinks ob.task ∧ (r.2.1 = .true ∧ r.1.type ≠ .error ∨ r.2.1 = .false)) →
      Ext I (((I.findLinks (I.defn.toLinks ob.task)).setTaskStatus o .done).applyRows rows) := by
    intro rows hr
    refine h2.trans (applyRows fun r hrm => ?_)
    obtain ⟨h3, h4⟩ := hr r hrm
    refine ⟨ob.task, o, r.1, by rw [h2.defn]; exact h3, rfl, ?_⟩
    rcases h4 with ⟨h5, h6⟩ | h5
    · rw [h5]; simp only [h6, if_false]; exact hm
    · rw [h5]; exact Or.inr hm
  dsimp only
  split
  · rename_i hx; rw [hx] at hrows; exact key _ hrows
  · rename_i hx; rw [hx] at hrows; exact key _ hrows

theorem Ext.errorTask {I : Inst} {o : Nat} {ob : Obj} (ho : I.objs[o]? = some ob)
    (hr : .taskStatus o ob.task .ready ∈ I.trace) : Ext I (I.errorTask o ob.task).1 := by
  unfold Inst.errorTask
  have h1 : Ext I (I.setTaskStatus o .failed) :=
    setTaskStatus' (Or.inr (Or.inr rfl)) fun ob2 ho2 => by rw [ho] at ho2; cases ho2; exact hr
  have hm : .taskStatus o ob.task .failed ∈ (I.setTaskStatus o .failed).trace := by
    rw [(getElem?_setTaskStatus ho).1]; simp
  have h2 : Ext (I.setTaskStatus o .failed) ((I.setTaskStatus o .failed).findLinks (I.defn.toLinks ob.task)) := findLinks _
  dsimp only
  split
  · exact h1.trans h2
  · rename_i rows hx
    refine (h1.trans h2).trans (applyRows fun r hrm => ?_)
    unfold errorRows at hx
    split at hx
    · cases hx
      obtain ⟨l, hl, hr⟩ := List.mem_map.1 hrm
      refine ⟨ob.task, o, l, by rw [h2.defn, h1.defn]; exact hl, ?_, ?_⟩
      · rw [← hr]; split <;> rfl
      · by_cases hle : l.type = .error
        · simp only [hle, if_true] at hr
          rw [← hr]
          simp only [hle, if_true]
          exact h2.mem hm
        · simp only [hle, if_false] at hr
          rw [← hr]
          exact Or.inl (h2.mem hm)
    · cases hx

/-- A task may be skipped now. -/
def CanSkip (I : Inst) (o : Nat) (t : TaskRef) : Prop :=
  (I.defn.fromLinks t ≠ [] ∧ ∀ l ∈ I.defn.fromLinks t, I.linkSt l.id ≠ .unset ∧ I.linkSt l.id ≠ .true) ∧
    .taskStatus o t .entered ∈ I.trace

theorem CanSkip.evOK {I : Inst} {o : Nat} {t : TaskRef} (h : CanSkip I o t) (ok : InstOK I) :
    EvOK I.defn (.taskStatus o t .skipped) I.trace := by
  refine ⟨⟨h.1.1, fun l hl => ?_, ?_⟩, h.2⟩
  · rw [← ok.links]; exact (h.1.2 l hl).1
  · rintro ⟨l, hl, hs⟩
    rw [← ok.links] at hs
    exact (h.1.2 l hl).2 hs

theorem findLink_linkSt (I : Inst) (k : LinkId) (l : LinkId) : (I.findLink k).linkSt l = I.linkSt l := by
  unfold Inst.findLink
  split
  · rfl
  · rename_i hn
    simp only [Inst.linkSt, AMap.get?_set]
    split
    · rename_i h; subst h; simp [hn]
    · rfl

theorem findLinks_linkSt (I : Inst) (ls : List LinkDef) (l : LinkId) : (I.findLinks ls).linkSt l = I.linkSt l := by
  unfold Inst.findLinks
  induction ls generalizing I with
  | nil => rfl
  | cons x xs ih => simp only [List.foldl_cons]; rw [ih, findLink_linkSt]

theorem setTaskStatus_linkSt (I : Inst) (o : Nat) (st : TaskStatus) (l : LinkId) :
    (I.setTaskStatus o st).linkSt l = I.linkSt l := by
  unfold Inst.setTaskStatus
  split <;> rfl

theorem Ext.skipTask {I : Inst} {o : Nat} {ob : Obj} (ho : I.objs[o]? = some ob) (hc : CanSkip I o ob.task) :
    Ext I (I.skipTask o ob.task).1 := by
  unfold Inst.skipTask
  have h1 : Ext I (I.findLinks (I.defn.toLinks ob.task)) := findLinks _
  obtain ⟨ob', ho', ht⟩ := h1.objs o ob ho
  have h2 : Ext (I.findLinks (I.defn.toLinks ob.task)) ((I.findLinks (I.defn.toLinks ob.task)).setTaskStatus o .skipped) := by
    refine setTaskStatus fun ob2 ho2 ok => ?_
    rw [ho'] at ho2; cases ho2
    rw [ht]
    refine CanSkip.evOK ⟨⟨?_, fun l hl => ?_⟩, h1.mem hc.2⟩ ok
    · rw [h1.defn]; exact hc.1.1
    · rw [findLinks_linkSt]; rw [h1.defn] at hl; exact hc.1.2 l hl
  have hm : .taskStatus o ob.task .skipped ∈ ((I.findLinks (I.defn.toLinks ob.task)).setTaskStatus o .skipped).trace := by
    rw [(getElem?_setTaskStatus ho').1, ht]; simp
  refine (h1.trans h2).trans (applyRows fun r hr => ?_)
  obtain ⟨l, hl, hr'⟩ := List.mem_map.1 hr
  refine ⟨ob.task, o, l, by rw [h2.defn, h1.defn]; exact hl, by rw [← hr'], ?_⟩
  rw [← hr']
  exact hm

/-- Entering a task: the instance evolves properly; a task to be evaluated has become ready, a task to be skipped may be
skipped. -/
theorem enterTask_ext (I : Inst) (t : TaskRef) :
    Ext I (I.enterTask t).1 ∧
    (InstOK I → (I.enterTask t).2.2 = .eval → ∃ ob, (I.enterTask t).1.objs[(I.enterTask t).2.1]? = some ob ∧
      .taskStatus (I.enterTask t).2.1 ob.task .ready ∈ (I.enterTask t).1.trace) ∧
    ((I.enterTask t).2.2 = .skip → ∃ ob, (I.enterTask t).1.objs[(I.enterTask t).2.1]? = some ob ∧
      CanSkip (I.enterTask t).1 (I.enterTask t).2.1 ob.task) := by
  unfold Inst.enterTask
  have h1 : Ext I (I.findOrCreateTask t).1 := Ext.findOrCreateTask t
  generalize (I.findOrCreateTask t).1 = I1 at h1 ⊢
  generalize (I.findOrCreateTask t).2 = o at *
  dsimp only
  split
  · exact ⟨h1, by simp, by simp⟩
  · rename_i ob ho
    have h2 : Ext I1 (I1.setTaskStatus o .entered) := Ext.enter
    obtain ⟨he2, ho2⟩ := getElem?_setTaskStatus (st := .entered) ho
    have h3 : Ext (I1.setTaskStatus o .entered) ((I1.setTaskStatus o .entered).findLinks (I1.defn.fromLinks ob.task)) :=
      Ext.findLinks _
    obtain ⟨ob3, ho3, ht3⟩ := h3.objs o _ ho2
    have hd : ((I1.setTaskStatus o .entered).findLinks (I1.defn.fromLinks ob.task)).defn = I1.defn := by
      rw [h3.defn, h2.defn]
    have he : .taskStatus o ob.task .entered ∈ ((I1.setTaskStatus o .entered).findLinks (I1.defn.fromLinks ob.task)).trace :=
      h3.mem (by rw [he2]; exact List.mem_cons_self)
    generalize (I1.setTaskStatus o .entered).findLinks (I1.defn.fromLinks ob.task) = I2 at h3 ho3 hd he ⊢
    have hI2 : Ext I I2 := (h1.trans h2).trans h3
    simp only at ht3
    split
    · exact ⟨hI2, by simp, by simp⟩
    · rename_i hdec
      have hdec' := (enterDecision_eval _).1 hdec
      have h4 : Ext I2 (I2.setTaskStatus o .ready) := by
        refine Ext.setTaskStatus fun ob4 ho4 ok => ?_
        rw [ho3] at ho4; cases ho4
        rw [ht3, hd]
        refine ⟨⟨fun l hl => ?_, ?_⟩, he⟩
        · rw [← ok.links]
          have := hdec'.1 (I2.linkSt l.id) (List.mem_map.2 ⟨l, hl, rfl⟩)
          intro hc; rw [hc] at this; exact this
        · rcases hdec'.2 with h | h
          · left; simpa using h
          · right
            obtain ⟨l, hl, hs⟩ := List.mem_map.1 h
            exact ⟨l, hl, by rw [← ok.links]; exact hs⟩
      refine ⟨hI2.trans h4, fun _ _ => ?_, by simp⟩
      obtain ⟨g1, g2⟩ := getElem?_setTaskStatus (st := .ready) ho3
      exact ⟨_, g2, by simp only; rw [g1]; simp⟩
    · rename_i hdec
      have hdec' := (enterDecision_skip _).1 hdec
      have hc : CanSkip I2 o ob.task := by
        refine ⟨⟨?_, fun l hl => ⟨fun hc => ?_, fun hc => ?_⟩⟩, he⟩
        · rw [hd]; intro h; exact hdec'.1 (by simp [h])
        · have := hdec'.2.1 (I2.linkSt l.id) (List.mem_map.2 ⟨l, by rw [hd] at hl; exact hl, rfl⟩)
          rw [hc] at this; exact this
        · exact hdec'.2.2 (List.mem_map.2 ⟨l, by rw [hd] at hl; exact hl, hc⟩)
      have h4 : Ext I2 (I2.setTaskStatus o .skipped) := by
        refine Ext.setTaskStatus fun ob4 ho4 ok => ?_
        rw [ho3] at ho4; cases ho4
        rw [ht3]
        exact hc.evOK ok
      refine ⟨hI2.trans h4, by simp, fun _ => ?_⟩
      obtain ⟨g1, g2⟩ := getElem?_setTaskStatus (st := .skipped) ho3
      refine ⟨_, g2, ?_⟩
      simp only [ht3]
      refine ⟨⟨by rw [h4.defn]; exact hc.1.1, fun l hl => ?_⟩, h4.mem hc.2⟩
      rw [setTaskStatus_linkSt]
      rw [h4.defn] at hl
      exact hc.1.2 l hl

end Flow
