import Verif.Spec.Graph
import Verif.Proofs.Behavior

/-
The execution of one flow graph, seen as an abstract machine: statuses of the tasks, decisions of the links and the
stack of successors still to be entered. The invariant `GInv` and its preservation by every kind of step.
-/

namespace Flow.GraphM
open Spec

/-- The task has finished: done, skipped or failed. -/
def Fin (s : TaskStatus) : Prop := 40 ≤ s.code
/-- The task is not yet decided. -/
def Open (s : TaskStatus) : Prop := s.code ≤ 10

instance (s : TaskStatus) : Decidable (Fin s) := inferInstanceAs (Decidable (_ ≤ _))
instance (s : TaskStatus) : Decidable (Open s) := inferInstanceAs (Decidable (_ ≤ _))

theorem Open.not_fin {s : TaskStatus} (h : Open s) : ¬ Fin s := by unfold Open at h; unfold Fin; omega

theorem open_iff {s : TaskStatus} : Open s ↔ s = .notStarted ∨ s = .entered := by
  cases s <;> simp [Open, TaskStatus.code]

theorem fin_iff {s : TaskStatus} : Fin s ↔ s = .done ∨ s = .skipped ∨ s = .failed := by
  cases s <;> simp [Fin, TaskStatus.code]

/-- The abstract state. `obj` is the task object of a task, `rel` tells whether the task was released, `lk` is the
current status of a link, `dec` the decision ever taken about it, `stk` the tasks whose successors are being entered,
with the remaining entries, `pend` the load of a task (its work items and what it waits for), `ex` the number of evaluations of its activity. -/
structure GS where
  obj : TaskId → Option Nat
  st : TaskId → TaskStatus
  rel : TaskId → Bool
  lk : LinkId → LinkStatus
  dec : LinkId → LinkStatus
  stk : List (TaskId × List TaskEntry)
  pend : TaskId → Nat
  ex : TaskId → Nat
  compl : Prop

/-- The load `n` of a task with this status: one work item if it is ready, nothing unless it is ready or waits; `W` is what
is known about the load of a task that waits. -/
def PendOK (W : Nat → Prop) (s : TaskStatus) (n : Nat) : Prop :=
  (s = .ready → n = 1) ∧ (s = .waiting → W n) ∧ (s ≠ .ready → s ≠ .waiting → n = 0)

theorem PendOK.none {W : Nat → Prop} {s : TaskStatus} {n : Nat} (h : PendOK W s n) (ho : Open s) : n = 0 := by
  refine h.2.2 ?_ ?_ <;> rintro rfl <;> simp [Open, TaskStatus.code] at ho

theorem PendOK.zero {W : Nat → Prop} {s : TaskStatus} (h : Fin s) : PendOK W s 0 := by
  refine ⟨?_, ?_, fun _ _ => rfl⟩ <;> rintro rfl <;> simp [Fin, TaskStatus.code] at h

/-- The task is ready or waits: it can be executed. -/
def Live (s : TaskStatus) : Prop := s = .ready ∨ s = .waiting

theorem Live.not_open {s : TaskStatus} (h : Live s) : ¬ Open s := by rcases h with rfl | rfl <;> simp [Open, TaskStatus.code]
theorem Live.not_fin {s : TaskStatus} (h : Live s) : ¬ Fin s := by rcases h with rfl | rfl <;> simp [Fin, TaskStatus.code]
theorem Live.ne_skipped {s : TaskStatus} (h : Live s) : s ≠ .skipped := by rcases h with rfl | rfl <;> exact fun hc => nomatch hc
theorem Live.ne_notStarted {s : TaskStatus} (h : Live s) : s ≠ .notStarted := by rcases h with rfl | rfl <;> exact fun hc => nomatch hc

/-- Update of a function at one point. -/
def upd {α β : Type} [DecidableEq α] (f : α → β) (k : α) (v : β) : α → β := fun x => if x = k then v else f x

theorem upd_self {α β : Type} [DecidableEq α] (f : α → β) (k : α) (v : β) : upd f k v k = v := if_pos rfl
theorem upd_ne {α β : Type} [DecidableEq α] (f : α → β) {k x : α} (v : β) (h : x ≠ k) : upd f k v x = f x := if_neg h

/-- Remaining entries of a task that finished. -/
structure FrameOK (g : Graph) (dec : LinkId → LinkStatus) (u : TaskId) (es : List TaskEntry) : Prop where
  link : ∀ x ∈ es, x.task.eh = false ∧ ∃ l ∈ g.links, l.src = u ∧ l.dst = x.task.id ∧ (x.enterCode < 4 ↔ dec l.id = .true)
  pw : es.Pairwise (fun x y => x.task.id ≠ y.task.id ∧ x.enterCode ≤ y.enterCode ∧
    (4 ≤ x.enterCode → ¬ Path g x.task.id y.task.id))

/-- The invariant. `single t` says that the activity of task `t` is evaluated once per execution; `F` is what is known
about the decisions, `W` what is known about the load of tasks that wait. -/
structure GInv (g : Graph) (single : TaskId → Prop) (F : TaskStatus → LinkDef → LinkStatus → Prop) (W : TaskId → Nat → Prop) (G : GS) : Prop where
  ownFin : ∀ f ∈ G.stk, Fin (G.st f.1) ∧ G.rel f.1 = false
  ownD : (G.stk.map (·.1)).Nodup
  relFin : ∀ t, G.rel t = true → Fin (G.st t)
  frames : ∀ f ∈ G.stk, FrameOK g G.dec f.1 f.2
  tgt : ∀ f ∈ G.stk, ∀ x ∈ f.2, Open (G.st x.task.id)
  preds : ∀ l ∈ g.links, ¬ Open (G.st l.dst) → Fin (G.st l.src)
  lkdec : ∀ k, G.lk k ≠ .unset → G.lk k = G.dec k
  lkset : ∀ l ∈ g.links, G.dec l.id ≠ .unset ↔ Fin (G.st l.src)
  lkrel : ∀ l ∈ g.links, Fin (G.st l.src) → G.rel l.dst = false → G.lk l.id ≠ .unset
  up : G.stk.Pairwise (fun a b => ∀ y ∈ b.2, ¬ Path g a.1 y.task.id)
  low : ∀ f ∈ G.stk.tail, ∀ y ∈ f.2, 4 ≤ y.enterCode
  prog : ∀ t, Open (G.st t) → ¬ IsStart g t → (∀ l ∈ g.links, l.dst = t → Fin (G.st l.src)) →
    ∃ f ∈ G.stk, ∃ x ∈ f.2, x.task.id = t
  fresh : ∀ l ∈ g.links, Fin (G.st l.src) → G.st l.dst = .notStarted →
    ∃ f ∈ G.stk, f.1 = l.src ∧ ∃ x ∈ f.2, x.task.id = l.dst
  start : ∀ t ∈ g.tasks, IsStart g t.id → ¬ Open (G.st t.id)
  pend : ∀ t, PendOK (W t) (G.st t) (G.pend t)
  comp1 : (∀ t ∈ g.tasks, Fin (G.st t.id)) → g.tasks ≠ [] → G.compl
  comp2 : G.compl → (∀ t, Open (G.st t) ∨ Fin (G.st t)) ∧ ∀ l ∈ g.links, G.dec l.id = .true → Fin (G.st l.dst)
  execd : ∀ t, ¬ Open (G.st t) → G.st t ≠ .skipped → IsStart g t ∨ ∃ l ∈ g.links, l.dst = t ∧ G.dec l.id = .true
  skipd : ∀ t, G.st t = .skipped → ¬ IsStart g t ∧ ∀ l ∈ g.links, l.dst = t → G.dec l.id ≠ .true
  decsrc : ∀ l ∈ g.links, G.dec l.id = .true → G.st l.src ≠ .skipped
  dom : ∀ t, G.st t ≠ .notStarted → ∃ td ∈ g.tasks, td.id = t
  outs : ∀ l ∈ g.links, Fin (G.st l.src) → G.st l.src ≠ .skipped → F (G.st l.src) l (G.dec l.id)
  objs : ∀ t, G.obj t = none ↔ G.st t = .notStarted
  objD : ∀ t u o, G.obj t = some o → G.obj u = some o → t = u
  ex : ∀ t, single t → G.ex t ≤ 1 ∧ (G.st t = .ready ∨ Open (G.st t) → G.ex t = 0)

variable {g : Graph} {single : TaskId → Prop} {F : TaskStatus → LinkDef → LinkStatus → Prop} {W : TaskId → Nat → Prop} {G : GS}

theorem links_inj (wf : WellFormed g) {l m : LinkDef} (hl : l ∈ g.links) (hm : m ∈ g.links) (h : l.id = m.id) : l = m := by
  have key : ∀ ls : List LinkDef, (ls.map (·.id)).Nodup → l ∈ ls → m ∈ ls → l = m := by
    intro ls
    induction ls with
    | nil => intro _ h1; simp at h1
    | cons a as ih =>
      intro hn h1 h2
      rw [List.map_cons, List.nodup_cons] at hn
      rcases List.mem_cons.1 h1 with rfl | h1'
      · rcases List.mem_cons.1 h2 with rfl | h2
        · rfl
        · exact absurd (List.mem_map.2 ⟨m, h2, h.symm⟩) hn.1
      · rcases List.mem_cons.1 h2 with rfl | h2
        · exact absurd (List.mem_map.2 ⟨l, h1', h⟩) hn.1
        · exact ih hn.2 h1' h2
  exact key _ wf.links hl hm

/-- Of the links of one task no two have the same target. -/
theorem dst_inj (os : OrderSafe g) {l m : LinkDef} (hl : l ∈ g.links) (hm : m ∈ g.links) (h : l.src = m.src)
    (hd : l.dst = m.dst) : l = m := by
  have hp := os m.src
  have h1 : l ∈ g.links.filter (fun l => l.src = m.src) := List.mem_filter.2 ⟨hl, by simp [h]⟩
  have h2 : m ∈ g.links.filter (fun l => l.src = m.src) := List.mem_filter.2 ⟨hm, by simp⟩
  generalize g.links.filter (fun l => l.src = m.src) = ls at hp h1 h2
  induction ls with
  | nil => simp at h1
  | cons a as ih =>
    rw [List.pairwise_cons] at hp
    rcases List.mem_cons.1 h1 with rfl | h1'
    · rcases List.mem_cons.1 h2 with rfl | h2
      · rfl
      · exact absurd hd (hp.1 _ h2).1
    · rcases List.mem_cons.1 h2 with rfl | h2
      · exact absurd hd.symm (hp.1 _ h1').1
      · exact ih hp.2 h1' h2

theorem Path.edge {l : LinkDef} (hl : l ∈ g.links) : Path g l.src l.dst := .step hl (.refl _)

theorem FrameOK.tail {dec : LinkId → LinkStatus} {u : TaskId} {x : TaskEntry} {es : List TaskEntry}
    (h : FrameOK g dec u (x :: es)) : FrameOK g dec u es :=
  ⟨fun y hy => h.link y (List.mem_cons_of_mem _ hy), (List.pairwise_cons.1 h.pw).2⟩

theorem FrameOK.congr {dec dec' : LinkId → LinkStatus} {u : TaskId} {es : List TaskEntry} (h : FrameOK g dec u es)
    (hd : ∀ l ∈ g.links, l.src = u → dec' l.id = dec l.id) : FrameOK g dec' u es := by
  refine ⟨fun x hx => ?_, h.pw⟩
  obtain ⟨a, l, hl, h1, h2, h3⟩ := h.link x hx
  exact ⟨a, l, hl, h1, h2, by rw [hd l hl h1]; exact h3⟩

namespace GInv

/-- The entry of a link that is followed has a code below four. -/
theorem code_of_true (h : GInv g single F W G) (os : OrderSafe g) {f : TaskId × List TaskEntry} (hf : f ∈ G.stk) {x : TaskEntry} (hx : x ∈ f.2)
    {l : LinkDef} (hl : l ∈ g.links) (h1 : l.src = f.1) (h2 : l.dst = x.task.id) : x.enterCode < 4 ↔ G.dec l.id = .true := by
  obtain ⟨_, m, hm, h3, h4, h5⟩ := (h.frames f hf).link x hx
  have : l = m := dst_inj os hl hm (h1.trans h3.symm) (h2.trans h4.symm)
  subst this; exact h5

/-- The target of a remaining entry is in the graph, has a link from the owner, and is not the owner. -/
theorem entry {u : TaskId} {x : TaskEntry} {es : List TaskEntry} {rest : List (TaskId × List TaskEntry)} (h : GInv g single F W G)
    (hs : G.stk = (u, x :: es) :: rest) :
    Open (G.st x.task.id) ∧ Fin (G.st u) ∧ x.task.id ≠ u ∧ G.rel x.task.id = false ∧
      ∃ l ∈ g.links, l.src = u ∧ l.dst = x.task.id ∧ (x.enterCode < 4 ↔ G.dec l.id = .true) := by
  have hm : (u, x :: es) ∈ G.stk := by rw [hs]; simp
  have h1 := h.tgt _ hm x (by simp)
  have h2 := (h.ownFin _ hm).1
  refine ⟨h1, h2, fun hc => ?_, ?_, ((h.frames _ hm).link x (by simp)).2⟩
  · rw [hc] at h1; exact h1.not_fin h2
  · cases hr : G.rel x.task.id with
    | false => rfl
    | true => exact absurd (h.relFin _ hr) h1.not_fin

/-- Other remaining entries have other targets. -/
theorem others {u : TaskId} {x : TaskEntry} {es : List TaskEntry} {rest : List (TaskId × List TaskEntry)} (h : GInv g single F W G)
    (hs : G.stk = (u, x :: es) :: rest) : (∀ y ∈ es, y.task.id ≠ x.task.id) ∧ ∀ f ∈ rest, ∀ y ∈ f.2, y.task.id ≠ x.task.id := by
  have hm : (u, x :: es) ∈ G.stk := by rw [hs]; simp
  obtain ⟨l, hl, h1, h2, _⟩ := (h.entry hs).2.2.2.2
  constructor
  · intro y hy hc
    exact ((List.pairwise_cons.1 (h.frames _ hm).pw).1 y hy).1 hc.symm
  · intro f hf y hy hc
    have hup := h.up
    rw [hs, List.pairwise_cons] at hup
    refine hup.1 f hf y hy ?_
    dsimp only
    rw [hc, ← h1, ← h2]
    exact Path.edge hl

/-- Entering a task whose incoming links are not all decided. -/
theorem enterWait {u : TaskId} {x : TaskEntry} {es : List TaskEntry} {rest : List (TaskId × List TaskEntry)} (h : GInv g single F W G)
    (hs : G.stk = (u, x :: es) :: rest) (hd : ∃ l ∈ g.links, l.dst = x.task.id ∧ G.lk l.id = .unset) {obj : TaskId → Option Nat}
    (ho : ∀ t, obj t = none ↔ upd G.st x.task.id .entered t = .notStarted) (hoD : ∀ t u o, obj t = some o → obj u = some o → t = u)
    (hdom : ∃ td ∈ g.tasks, td.id = x.task.id) :
    GInv g single F W { G with obj := obj, st := upd G.st x.task.id .entered, stk := (u, es) :: rest } := by
  obtain ⟨hop, hfu, hxu, hrel, l0, hl0, hl1, hl2, hl3⟩ := h.entry hs
  obtain ⟨hes, hrest⟩ := h.others hs
  have hm : (u, x :: es) ∈ G.stk := by rw [hs]; simp
  have hfin : ∀ t, Fin (upd G.st x.task.id .entered t) ↔ Fin (G.st t) := by
    intro t
    by_cases ht : t = x.task.id
    · subst ht; rw [upd_self]; exact ⟨fun hc => by simp [Fin, TaskStatus.code] at hc, fun hc => absurd hc hop.not_fin⟩
    · rw [upd_ne _ _ ht]
  have hopen : ∀ t, Open (upd G.st x.task.id .entered t) ↔ Open (G.st t) := by
    intro t
    by_cases ht : t = x.task.id
    · subst ht; rw [upd_self]; exact ⟨fun _ => hop, fun _ => by simp [Open, TaskStatus.code]⟩
    · rw [upd_ne _ _ ht]
  have hmem : ∀ f ∈ (u, es) :: rest, ∃ f' ∈ G.stk, f'.1 = f.1 ∧ ∀ y ∈ f.2, y ∈ f'.2 := by
    intro f hf
    rcases List.mem_cons.1 hf with rfl | hf
    · exact ⟨_, hm, rfl, fun y hy => List.mem_cons_of_mem _ hy⟩
    · exact ⟨f, by rw [hs]; exact List.mem_cons_of_mem _ hf, rfl, fun y hy => hy⟩
  have hskip : ∀ t, upd G.st x.task.id .entered t = .skipped ↔ G.st t = .skipped := by
    intro t
    by_cases ht : t = x.task.id
    · subst ht; rw [upd_self]; exact ⟨(fun hc => nomatch hc), fun hc => by rw [hc] at hop; simp [Open, TaskStatus.code] at hop⟩
    · rw [upd_ne _ _ ht]
  have hready : ∀ t, upd G.st x.task.id .entered t = .ready ↔ G.st t = .ready := by
    intro t
    by_cases ht : t = x.task.id
    · subst ht; rw [upd_self]; exact ⟨(fun hc => nomatch hc), fun hc => by rw [hc] at hop; simp [Open, TaskStatus.code] at hop⟩
    · rw [upd_ne _ _ ht]
  have hkeep : ∀ t, t ≠ x.task.id → (∃ f ∈ G.stk, ∃ y ∈ f.2, y.task.id = t) → ∃ f ∈ (u, es) :: rest, ∃ y ∈ f.2, y.task.id = t := by
    rintro t ht ⟨f, hf, y, hy, rfl⟩
    rw [hs] at hf
    rcases List.mem_cons.1 hf with rfl | hf
    · rcases List.mem_cons.1 hy with rfl | hy
      · exact absurd rfl ht
      · exact ⟨(u, es), by simp, y, hy, rfl⟩
    · exact ⟨f, List.mem_cons_of_mem _ hf, y, hy, rfl⟩
  have hup := h.up
  rw [hs, List.pairwise_cons] at hup
  refine ⟨?_, ?_, ?_, ?_, ?_, ?_, h.lkdec, ?_, ?_, ?_, ?_, ?_, ?_, ?_, ?_, ?_, ?_, ?_, ?_, ?_, ?_, ?_, ho, hoD, ?_⟩ <;> dsimp only
  · intro f hf
    obtain ⟨f', h1, h2, _⟩ := hmem f hf
    rw [← h2, hfin]; exact h.ownFin f' h1
  · have := h.ownD; rw [hs] at this; simpa using this
  · intro t ht; rw [hfin]; exact h.relFin t ht
  · intro f hf
    rcases List.mem_cons.1 hf with rfl | hf
    · exact (h.frames _ hm).tail
    · exact h.frames f (by rw [hs]; exact List.mem_cons_of_mem _ hf)
  · intro f hf y hy
    obtain ⟨f', h1, _, h3⟩ := hmem f hf
    rw [hopen]; exact h.tgt f' h1 y (h3 y hy)
  · intro l hl; rw [hopen, hfin]; exact h.preds l hl
  · intro l hl; rw [hfin]; exact h.lkset l hl
  · intro l hl; rw [hfin]; exact h.lkrel l hl
  · rw [List.pairwise_cons]; exact ⟨hup.1, hup.2⟩
  · intro f hf; exact h.low f (by rw [hs]; exact hf)
  · intro t ht hns hp
    rw [hopen] at ht
    have hp' : ∀ l ∈ g.links, l.dst = t → Fin (G.st l.src) := fun l hl hlt => (hfin _).1 (hp l hl hlt)
    by_cases htx : t = x.task.id
    · subst htx
      obtain ⟨l, hl, h1, h2⟩ := hd
      exact absurd h2 (h.lkrel l hl (hp' l hl h1) (by rw [h1]; exact hrel))
    · exact hkeep t htx (h.prog t ht hns hp')
  · intro l hl h1 h2
    rw [hfin] at h1
    by_cases htx : l.dst = x.task.id
    · rw [htx, upd_self] at h2; cases h2
    · rw [upd_ne _ _ htx] at h2
      obtain ⟨f, hf, hf1, y, hy, hy1⟩ := h.fresh l hl h1 h2
      rw [hs] at hf
      rcases List.mem_cons.1 hf with rfl | hf
      · rcases List.mem_cons.1 hy with rfl | hy
        · exact absurd hy1.symm htx
        · exact ⟨(u, es), by simp, hf1, y, hy, hy1⟩
      · exact ⟨f, List.mem_cons_of_mem _ hf, hf1, y, hy, hy1⟩
  · intro t ht hst; rw [hopen]; exact h.start t ht hst
  · intro t
    by_cases ht : t = x.task.id
    · subst ht; rw [upd_self, (h.pend _).none hop]; exact ⟨(fun hc => nomatch hc), (fun hc => nomatch hc), fun _ _ => rfl⟩
    · rw [upd_ne _ _ ht]; exact h.pend t
  · intro hall hne
    refine h.comp1 (fun t ht => (hfin _).1 (hall t ht)) hne
  · intro hc
    obtain ⟨h1, h2⟩ := h.comp2 hc
    exact ⟨fun t => by rw [hopen, hfin]; exact h1 t, fun l hl hdl => by rw [hfin]; exact h2 l hl hdl⟩
  · intro t; rw [hopen, Ne, hskip]; exact h.execd t
  · intro t; rw [hskip]; exact h.skipd t
  · intro l hl; rw [Ne, hskip]; exact h.decsrc l hl
  · intro t ht
    by_cases htx : t = x.task.id
    · rw [htx]; exact hdom
    · rw [upd_ne _ _ htx] at ht; exact h.dom t ht
  · intro l hl h1 h2
    have hne : l.src ≠ x.task.id := by
      intro hc; rw [hfin, hc] at h1; exact hop.not_fin h1
    rw [upd_ne _ _ hne] at h1 h2 ⊢
    exact h.outs l hl h1 h2
  · intro t hst; rw [hready, hopen]; exact h.ex t hst

/-- Entering a task whose incoming links are decided and one of which is followed. -/
theorem enterEval {u : TaskId} {x : TaskEntry} {es : List TaskEntry} {rest : List (TaskId × List TaskEntry)} (h : GInv g single F W G)
    (hs : G.stk = (u, x :: es) :: rest) (hd : ∀ l ∈ g.links, l.dst = x.task.id → G.lk l.id ≠ .unset)
    (hd2 : ∃ l ∈ g.links, l.dst = x.task.id ∧ G.lk l.id = .true) {obj : TaskId → Option Nat}
    (ho : ∀ t, obj t = none ↔ upd G.st x.task.id .ready t = .notStarted) (hoD : ∀ t u o, obj t = some o → obj u = some o → t = u)
    (hdom : ∃ td ∈ g.tasks, td.id = x.task.id) :
    GInv g single F W { G with obj := obj, st := upd G.st x.task.id .ready, stk := (u, es) :: rest, pend := upd G.pend x.task.id 1 } := by
  obtain ⟨hop, hfu, hxu, hrel, l0, hl0, hl1, hl2, hl3⟩ := h.entry hs
  obtain ⟨hes, hrest⟩ := h.others hs
  have hm : (u, x :: es) ∈ G.stk := by rw [hs]; simp
  have hfin : ∀ t, Fin (upd G.st x.task.id .ready t) ↔ Fin (G.st t) := by
    intro t
    by_cases ht : t = x.task.id
    · subst ht; rw [upd_self]; exact ⟨fun hc => by simp [Fin, TaskStatus.code] at hc, fun hc => absurd hc hop.not_fin⟩
    · rw [upd_ne _ _ ht]
  have hopen : ∀ t, Open (upd G.st x.task.id .ready t) ↔ Open (G.st t) ∧ t ≠ x.task.id := by
    intro t
    by_cases ht : t = x.task.id
    · subst ht; rw [upd_self]; simp [Open, TaskStatus.code]
    · rw [upd_ne _ _ ht]; simp [ht]
  have hmem : ∀ f ∈ (u, es) :: rest, ∃ f' ∈ G.stk, f'.1 = f.1 ∧ ∀ y ∈ f.2, y ∈ f'.2 ∧ y.task.id ≠ x.task.id := by
    intro f hf
    rcases List.mem_cons.1 hf with rfl | hf
    · exact ⟨_, hm, rfl, fun y hy => ⟨List.mem_cons_of_mem _ hy, hes y hy⟩⟩
    · exact ⟨f, by rw [hs]; exact List.mem_cons_of_mem _ hf, rfl, fun y hy => ⟨hy, hrest f hf y hy⟩⟩
  have hskip : ∀ t, upd G.st x.task.id .ready t = .skipped ↔ G.st t = .skipped := by
    intro t
    by_cases ht : t = x.task.id
    · subst ht; rw [upd_self]; exact ⟨(fun hc => nomatch hc), fun hc => by rw [hc] at hop; simp [Open, TaskStatus.code] at hop⟩
    · rw [upd_ne _ _ ht]
  have hkeep : ∀ t, t ≠ x.task.id → (∃ f ∈ G.stk, ∃ y ∈ f.2, y.task.id = t) → ∃ f ∈ (u, es) :: rest, ∃ y ∈ f.2, y.task.id = t := by
    rintro t ht ⟨f, hf, y, hy, rfl⟩
    rw [hs] at hf
    rcases List.mem_cons.1 hf with rfl | hf
    · rcases List.mem_cons.1 hy with rfl | hy
      · exact absurd rfl ht
      · exact ⟨(u, es), by simp, y, hy, rfl⟩
    · exact ⟨f, List.mem_cons_of_mem _ hf, y, hy, rfl⟩
  have hdec : ∀ l ∈ g.links, l.dst = x.task.id → Fin (G.st l.src) := fun l hl h1 =>
    (h.lkset l hl).1 (by rw [← h.lkdec _ (hd l hl h1)]; exact hd l hl h1)
  have htrue : ∃ l ∈ g.links, l.dst = x.task.id ∧ G.dec l.id = .true := by
    obtain ⟨l, hl, h1, h2⟩ := hd2
    exact ⟨l, hl, h1, by rw [← h.lkdec _ (hd l hl h1)]; exact h2⟩
  have hup := h.up
  rw [hs, List.pairwise_cons] at hup
  refine ⟨?_, ?_, ?_, ?_, ?_, ?_, h.lkdec, ?_, ?_, ?_, ?_, ?_, ?_, ?_, ?_, ?_, ?_, ?_, ?_, ?_, ?_, ?_, ho, hoD, ?_⟩ <;> dsimp only
  · intro f hf
    obtain ⟨f', h1, h2, _⟩ := hmem f hf
    rw [← h2, hfin]; exact h.ownFin f' h1
  · have := h.ownD; rw [hs] at this; simpa using this
  · intro t ht; rw [hfin]; exact h.relFin t ht
  · intro f hf
    rcases List.mem_cons.1 hf with rfl | hf
    · exact (h.frames _ hm).tail
    · exact h.frames f (by rw [hs]; exact List.mem_cons_of_mem _ hf)
  · intro f hf y hy
    obtain ⟨f', h1, _, h3⟩ := hmem f hf
    rw [hopen]; exact ⟨h.tgt f' h1 y (h3 y hy).1, (h3 y hy).2⟩
  · intro l hl h1
    rw [hfin]
    by_cases htx : l.dst = x.task.id
    · exact hdec l hl htx
    · rw [hopen] at h1
      exact h.preds l hl (fun hc => h1 ⟨hc, htx⟩)
  · intro l hl; rw [hfin]; exact h.lkset l hl
  · intro l hl; rw [hfin]; exact h.lkrel l hl
  · rw [List.pairwise_cons]; exact ⟨hup.1, hup.2⟩
  · intro f hf; exact h.low f (by rw [hs]; exact hf)
  · intro t ht hns hp
    rw [hopen] at ht
    exact hkeep t ht.2 (h.prog t ht.1 hns (fun l hl hlt => (hfin _).1 (hp l hl hlt)))
  · intro l hl h1 h2
    rw [hfin] at h1
    by_cases htx : l.dst = x.task.id
    · rw [htx, upd_self] at h2; cases h2
    · rw [upd_ne _ _ htx] at h2
      obtain ⟨f, hf, hf1, y, hy, hy1⟩ := h.fresh l hl h1 h2
      rw [hs] at hf
      rcases List.mem_cons.1 hf with rfl | hf
      · rcases List.mem_cons.1 hy with rfl | hy
        · exact absurd hy1.symm htx
        · exact ⟨(u, es), by simp, hf1, y, hy, hy1⟩
      · exact ⟨f, List.mem_cons_of_mem _ hf, hf1, y, hy, hy1⟩
  · intro t ht hst hc; rw [hopen] at hc; exact h.start t ht hst hc.1
  · intro t
    by_cases htx : t = x.task.id
    · subst htx; rw [upd_self, upd_self]; exact ⟨fun _ => rfl, (fun hc => nomatch hc), fun hc => absurd rfl hc⟩
    · rw [upd_ne _ _ htx, upd_ne _ _ htx]; exact h.pend t
  · intro hall hne
    exact h.comp1 (fun t ht => (hfin _).1 (hall t ht)) hne
  · intro hc
    obtain ⟨_, h2⟩ := h.comp2 hc
    obtain ⟨l, hl, h3, h4⟩ := htrue
    have := h2 l hl h4
    rw [h3] at this
    exact absurd this hop.not_fin
  · intro t h1 h2
    by_cases htx : t = x.task.id
    · right; rw [htx]; exact htrue
    · rw [hopen] at h1; rw [Ne, hskip] at h2
      exact h.execd t (fun hc => h1 ⟨hc, htx⟩) h2
  · intro t; rw [hskip]; exact h.skipd t
  · intro l hl; rw [Ne, hskip]; exact h.decsrc l hl
  · intro t ht
    by_cases htx : t = x.task.id
    · rw [htx]; exact hdom
    · rw [upd_ne _ _ htx] at ht; exact h.dom t ht
  · intro l hl h1 h2
    have hne : l.src ≠ x.task.id := by
      intro hc; rw [hfin, hc] at h1; exact hop.not_fin h1
    rw [upd_ne _ _ hne] at h1 h2 ⊢
    exact h.outs l hl h1 h2
  · intro t hst
    by_cases htx : t = x.task.id
    · subst htx
      exact ⟨(h.ex _ hst).1, fun _ => (h.ex _ hst).2 (Or.inr hop)⟩
    · rw [upd_ne _ _ htx]; exact h.ex t hst

/-- Releasing a task whose successors have all been entered. -/
theorem release {u : TaskId} {rest : List (TaskId × List TaskEntry)} (h : GInv g single F W G)
    (hs : G.stk = (u, []) :: rest) {lk : LinkId → LinkStatus} (hlk : ∀ k, lk k = .unset ∨ lk k = G.lk k)
    (hlk2 : ∀ l ∈ g.links, l.dst ≠ u → lk l.id = G.lk l.id) :
    GInv g single F W { G with rel := upd G.rel u true, lk := lk, stk := rest } := by
  have hm : (u, []) ∈ G.stk := by rw [hs]; simp
  have hsub : ∀ f ∈ rest, f ∈ G.stk := fun f hf => by rw [hs]; exact List.mem_cons_of_mem _ hf
  have hup := h.up
  rw [hs, List.pairwise_cons] at hup
  have hnd := h.ownD
  rw [hs, List.map_cons, List.nodup_cons] at hnd
  have hkeep : ∀ (P : TaskId → Prop) (t : TaskId), (∃ f ∈ G.stk, P f.1 ∧ ∃ y ∈ f.2, y.task.id = t) → ∃ f ∈ rest, P f.1 ∧ ∃ y ∈ f.2, y.task.id = t := by
    rintro P t ⟨f, hf, hP, y, hy, hyt⟩
    rw [hs] at hf
    rcases List.mem_cons.1 hf with rfl | hf
    · simp at hy
    · exact ⟨f, hf, hP, y, hy, hyt⟩
  refine ⟨?_, hnd.2, ?_, fun f hf => h.frames f (hsub f hf), fun f hf => h.tgt f (hsub f hf), h.preds, ?_, h.lkset, ?_, hup.2, ?_, ?_,
    ?_, h.start, h.pend, h.comp1, h.comp2, h.execd, h.skipd, h.decsrc, h.dom, h.outs, h.objs, h.objD, h.ex⟩ <;> dsimp only
  · intro f hf
    have hne : f.1 ≠ u := fun hc => hnd.1 (by rw [← hc]; exact List.mem_map.2 ⟨f, hf, rfl⟩)
    rw [upd_ne _ _ hne]
    exact h.ownFin f (hsub f hf)
  · intro t ht
    by_cases htu : t = u
    · rw [htu]; exact (h.ownFin _ hm).1
    · rw [upd_ne _ _ htu] at ht; exact h.relFin t ht
  · intro k hk
    rcases hlk k with h1 | h1
    · exact absurd h1 hk
    · rw [h1] at hk ⊢; exact h.lkdec k hk
  · intro l hl h1 h2
    by_cases htu : l.dst = u
    · rw [htu, upd_self] at h2; cases h2
    · rw [upd_ne _ _ htu] at h2
      rw [hlk2 l hl htu]
      exact h.lkrel l hl h1 h2
  · intro f hf
    exact h.low f (by rw [hs]; exact List.mem_of_mem_tail hf)
  · intro t ht hns hp
    obtain ⟨f, hf, x, hx, hxt⟩ := h.prog t ht hns hp
    obtain ⟨f', h1, _, h2⟩ := hkeep (fun _ => True) t ⟨f, hf, trivial, x, hx, hxt⟩
    exact ⟨f', h1, h2⟩
  · intro l hl h1 h2
    exact hkeep (· = l.src) _ (h.fresh l hl h1 h2)

/-- What finishing task `u` with status `s` does: decisions about its outgoing links, and the entries of its
successors. -/
structure Finish (g : Graph) (G : GS) (u : TaskId) (s : TaskStatus) (lk dec : LinkId → LinkStatus) (es : List TaskEntry) : Prop where
  outs : ∀ l ∈ g.links, l.src = u → lk l.id = dec l.id ∧ dec l.id ≠ .unset
  others : ∀ k, (∀ l ∈ g.links, l.src = u → l.id ≠ k) → lk k = G.lk k ∧ dec k = G.dec k
  frame : FrameOK g dec u es
  full : ∀ l ∈ g.links, l.src = u → ∃ x ∈ es, x.task.id = l.dst

/-- Finishing a task, with `stk` the stack left. -/
theorem finishing {u : TaskId} {s : TaskStatus} {lk dec : LinkId → LinkStatus} {es : List TaskEntry} {stk : List (TaskId × List TaskEntry)}
    (h : GInv g single F W G) (wf : WellFormed g) (os : OrderSafe g) (hf : Finish g G u s lk dec es) (hu : ¬ Fin (G.st u)) (hs : Fin s)
    (hstk : ∀ f ∈ stk, ∃ f' ∈ G.stk, f'.1 = f.1 ∧ ∀ y ∈ f.2, y ∈ f'.2 ∧ y.task.id ≠ u)
    (hnd : (stk.map (·.1)).Nodup)
    (hfr : ∀ f ∈ stk, FrameOK g G.dec f.1 f.2)
    (hkeep : ∀ f ∈ G.stk, ∀ y ∈ f.2, y.task.id ≠ u → ∃ f' ∈ stk, f'.1 = f.1 ∧ y ∈ f'.2)
    (hup : stk.Pairwise (fun a b => ∀ y ∈ b.2, ¬ Path g a.1 y.task.id))
    (hup2 : ∀ f ∈ stk, ∀ y ∈ f.2, ¬ Path g u y.task.id)
    (hlow : ∀ f ∈ stk, ∀ y ∈ f.2, 4 ≤ y.enterCode)
    (hpr : ∀ l ∈ g.links, l.dst = u → Fin (G.st l.src))
    (hst : IsStart g u → ¬ Open (G.st u))
    (hex : s ≠ .skipped → IsStart g u ∨ ∃ l ∈ g.links, l.dst = u ∧ G.dec l.id = .true)
    (hsk : s = .skipped → ¬ IsStart g u ∧ ∀ l ∈ g.links, l.dst = u → G.dec l.id ≠ .true)
    (hdd : s = .skipped → ∀ l ∈ g.links, l.src = u → dec l.id ≠ .true)
    (hFd : s ≠ .skipped → ∀ l ∈ g.links, l.src = u → F s l (dec l.id))
    (hdom : ∃ td ∈ g.tasks, td.id = u)
    (hcs : G.compl → s = .skipped)
    {obj : TaskId → Option Nat} (ho : ∀ t, obj t = none ↔ upd G.st u s t = .notStarted)
    (hoD : ∀ t u o, obj t = some o → obj u = some o → t = u)
    {n : Nat} (hn : single u → n ≤ 1) {compl : Prop}
    (hc : compl ↔ G.compl ∨ ((∀ l ∈ g.links, l.src ≠ u) ∧ ∀ t, upd G.st u s t ≠ .notStarted → G.rel t = false → Fin (upd G.st u s t))) :
    GInv g single F W ⟨obj, upd G.st u s, G.rel, lk, dec, (u, es) :: stk, upd G.pend u 0, upd G.ex u n, compl⟩ := by
  have hfin : ∀ t, Fin (upd G.st u s t) ↔ Fin (G.st t) ∨ t = u := by
    intro t
    by_cases ht : t = u
    · subst ht; rw [upd_self]; simp [hs]
    · rw [upd_ne _ _ ht]; simp [ht]
  have hopen : ∀ t, Open (upd G.st u s t) ↔ Open (G.st t) ∧ t ≠ u := by
    intro t
    by_cases ht : t = u
    · subst ht; rw [upd_self]; simp only [ne_eq, not_true_eq_false, and_false, iff_false]
      exact fun hc => hc.not_fin hs
    · rw [upd_ne _ _ ht]; simp [ht]
  -- links of other tasks keep their data
  have hoth : ∀ l ∈ g.links, l.src ≠ u → lk l.id = G.lk l.id ∧ dec l.id = G.dec l.id := by
    intro l hl hne
    refine hf.others l.id fun m hm hmu hc => ?_
    rw [links_inj wf hm hl hc] at hmu
    exact hne hmu
  -- targets of the new entries are open
  have hntgt : ∀ l ∈ g.links, l.src = u → Open (G.st l.dst) ∧ l.dst ≠ u := by
    intro l hl hlu
    constructor
    · apply Decidable.byContradiction
      intro hc
      have := h.preds l hl hc
      rw [hlu] at this; exact hu this
    · intro hc
      have := hpr l hl hc
      rw [hlu] at this; exact hu this
  have hrel : G.rel u = false := by
    cases hr : G.rel u with
    | false => rfl
    | true => exact absurd (h.relFin _ hr) hu
  have hunown : ∀ f ∈ stk, f.1 ≠ u := by
    intro f hfm hc
    obtain ⟨f', h1, h2, _⟩ := hstk f hfm
    have := (h.ownFin f' h1).1
    rw [h2, hc] at this; exact hu this
  -- decisions stay
  have hdecset : ∀ l ∈ g.links, Fin (G.st l.src) → dec l.id = G.dec l.id ∧ lk l.id = G.lk l.id := by
    intro l hl h1
    have hne : l.src ≠ u := fun hc => hu (by rw [← hc]; exact h1)
    exact ⟨(hoth l hl hne).2, (hoth l hl hne).1⟩
  refine ⟨?_, ?_, ?_, ?_, ?_, ?_, ?_, ?_, ?_, ?_, ?_, ?_, ?_, ?_, ?_, ?_, ?_, ?_, ?_, ?_, ?_, ?_, ho, hoD, ?_⟩ <;> dsimp only
  · -- ownFin
    intro f hfm
    rcases List.mem_cons.1 hfm with rfl | hfm
    · exact ⟨by rw [hfin]; exact Or.inr rfl, hrel⟩
    · obtain ⟨f', h1, h2, _⟩ := hstk f hfm
      rw [← h2, hfin]
      exact ⟨Or.inl (h.ownFin f' h1).1, (h.ownFin f' h1).2⟩
  · -- ownD
    rw [List.map_cons, List.nodup_cons]
    refine ⟨fun hc => ?_, hnd⟩
    obtain ⟨f, hfm, hfu⟩ := List.mem_map.1 hc
    exact hunown f hfm hfu
  · -- relFin
    intro t ht; rw [hfin]; exact Or.inl (h.relFin t ht)
  · -- frames
    intro f hfm
    rcases List.mem_cons.1 hfm with rfl | hfm
    · exact hf.frame
    · refine (hfr f hfm).congr fun l hl hlf => (hoth l hl ?_).2
      rw [hlf]; exact hunown f hfm
  · -- tgt
    intro f hfm y hy
    rw [hopen]
    rcases List.mem_cons.1 hfm with rfl | hfm
    · obtain ⟨_, l, hl, h1, h2, _⟩ := hf.frame.link y hy
      rw [← h2]; exact hntgt l hl h1
    · obtain ⟨f', h1, _, h3⟩ := hstk f hfm
      exact ⟨h.tgt f' h1 y (h3 y hy).1, (h3 y hy).2⟩
  · -- preds
    intro l hl h1
    rw [hfin]
    by_cases hlu : l.dst = u
    · exact Or.inl (hpr l hl hlu)
    · rw [hopen] at h1
      exact Or.inl (h.preds l hl fun hc => h1 ⟨hc, hlu⟩)
  · -- lkdec
    intro k hk
    by_cases hex : ∃ l ∈ g.links, l.src = u ∧ l.id = k
    · obtain ⟨l, hl, h1, rfl⟩ := hex
      exact (hf.outs l hl h1).1
    · obtain ⟨h1, h2⟩ := hf.others k fun l hl hlu hc => hex ⟨l, hl, hlu, hc⟩
      rw [h1] at hk ⊢; rw [h2]; exact h.lkdec k hk
  · -- lkset
    intro l hl
    rw [hfin]
    by_cases hlu : l.src = u
    · exact ⟨fun _ => Or.inr hlu, fun _ => (hf.outs l hl hlu).2⟩
    · rw [(hoth l hl hlu).2, h.lkset l hl]; simp [hlu]
  · -- lkrel
    intro l hl h1 h2
    by_cases hlu : l.src = u
    · rw [(hf.outs l hl hlu).1]; exact (hf.outs l hl hlu).2
    · rw [hfin] at h1
      rw [(hoth l hl hlu).1]
      exact h.lkrel l hl (h1.resolve_right hlu) h2
  · -- up
    rw [List.pairwise_cons]; exact ⟨hup2, hup⟩
  · -- low
    exact hlow
  · -- prog
    intro t ht hns hp
    rw [hopen] at ht
    by_cases hto : ∃ l ∈ g.links, l.src = u ∧ l.dst = t
    · obtain ⟨l, hl, h1, h2⟩ := hto
      obtain ⟨x, hx, hxl⟩ := hf.full l hl h1
      exact ⟨(u, es), by simp, x, hx, hxl.trans h2⟩
    · obtain ⟨f, hfm, y, hy, hyt⟩ := h.prog t ht.1 hns (fun l hl hlt =>
        ((hfin _).1 (hp l hl hlt)).resolve_right fun hc => hto ⟨l, hl, hc, hlt⟩)
      obtain ⟨f', h1, _, h2⟩ := hkeep f hfm y hy (by rw [hyt]; exact ht.2)
      exact ⟨f', List.mem_cons_of_mem _ h1, y, h2, hyt⟩
  · -- fresh
    intro l hl h1 h2
    have hdu : l.dst ≠ u := by
      intro hc; rw [hc, upd_self] at h2; rw [h2] at hs; simp [Fin, TaskStatus.code] at hs
    rw [upd_ne _ _ hdu] at h2
    by_cases hlu : l.src = u
    · obtain ⟨x, hx, hxl⟩ := hf.full l hl hlu
      exact ⟨(u, es), by simp, hlu.symm, x, hx, hxl⟩
    · rw [hfin] at h1
      obtain ⟨f, hfm, hf1, y, hy, hyt⟩ := h.fresh l hl (h1.resolve_right hlu) h2
      obtain ⟨f', h3, h4, h5⟩ := hkeep f hfm y hy (by rw [hyt]; exact hdu)
      exact ⟨f', List.mem_cons_of_mem _ h3, h4.trans hf1, y, h5, hyt⟩
  · -- start
    intro t ht hst' hc'; rw [hopen] at hc'; exact h.start t ht hst' hc'.1
  · -- pend
    intro t
    by_cases htu : t = u
    · subst htu; rw [upd_self, upd_self]
      exact PendOK.zero hs
    · rw [upd_ne _ _ htu, upd_ne _ _ htu]; exact h.pend t
  · -- comp1
    intro hall hne
    rw [hc]
    right
    refine ⟨fun l hl hlu => ?_, fun t ht _ => ?_⟩
    · obtain ⟨td, htd, htl⟩ := wf.dst l hl
      have h1 := hall td htd
      rw [htl, hfin] at h1
      obtain ⟨h2, h3⟩ := hntgt l hl hlu
      exact h1.elim h2.not_fin h3
    · by_cases htu : t = u
      · subst htu; rw [upd_self]; exact hs
      · rw [upd_ne _ _ htu] at ht
        obtain ⟨td, htd, htl⟩ := h.dom t ht
        rw [← htl]; exact hall td htd
  · -- comp2
    intro hcc
    rw [hc] at hcc
    rcases hcc with hcc | ⟨hno, hall⟩
    · obtain ⟨h1, h2⟩ := h.comp2 hcc
      refine ⟨fun t => ?_, fun l hl hd => ?_⟩
      · rw [hopen, hfin]
        by_cases htu : t = u
        · exact Or.inr (Or.inr htu)
        · rcases h1 t with h3 | h3
          · exact Or.inl ⟨h3, htu⟩
          · exact Or.inr (Or.inl h3)
      · rw [hfin]
        by_cases hlu : l.src = u
        · exact absurd hd (hdd (hcs hcc) l hl hlu)
        · rw [(hoth l hl hlu).2] at hd
          exact Or.inl (h2 l hl hd)
    · have key : ∀ t, upd G.st u s t = .notStarted ∨ Fin (upd G.st u s t) := by
        intro t
        by_cases hns : upd G.st u s t = .notStarted
        · exact Or.inl hns
        · right
          by_cases htu : t = u
          · subst htu; rw [upd_self]; exact hs
          · cases hr : G.rel t with
            | false => exact hall t hns hr
            | true => rw [hfin]; exact Or.inl (h.relFin t hr)
      refine ⟨fun t => (key t).imp (fun hk => by rw [hk]; simp [Open, TaskStatus.code]) id, fun l hl hd => ?_⟩
      rcases key l.dst with hk | hk
      · exfalso
        have hlu : l.src ≠ u := hno l hl
        have hdu : l.dst ≠ u := by
          intro hcu; rw [hcu, upd_self] at hk; rw [hk] at hs; simp [Fin, TaskStatus.code] at hs
        rw [upd_ne _ _ hdu] at hk
        rw [(hoth l hl hlu).2] at hd
        have hfs : Fin (G.st l.src) := (h.lkset l hl).1 (by rw [hd]; exact fun hx => nomatch hx)
        obtain ⟨f, hfm, hf1, y, hy, hyt⟩ := h.fresh l hl hfs hk
        obtain ⟨f', h3, h4, h5⟩ := hkeep f hfm y hy (by rw [hyt]; exact hdu)
        have hcode := hlow f' h3 y h5
        obtain ⟨_, m, hm, h6, h7, h8⟩ := (hfr f' h3).link y h5
        have hml : m.src = l.src := h6.trans (h4.trans hf1)
        have : m = l := dst_inj os hm hl hml (h7.trans hyt)
        rw [this] at h8
        have := h8.2 hd
        omega
      · exact hk
  · -- execd
    intro t h1 h2
    by_cases htu : t = u
    · subst htu; rw [upd_self] at h2
      rcases hex h2 with h3 | ⟨l, hl, h3, h4⟩
      · exact Or.inl h3
      · exact Or.inr ⟨l, hl, h3, by rw [(hdecset l hl (hpr l hl h3)).1]; exact h4⟩
    · rw [hopen] at h1; rw [upd_ne _ _ htu] at h2
      have h1' : ¬ Open (G.st t) := fun hx => h1 ⟨hx, htu⟩
      rcases h.execd t h1' h2 with h3 | ⟨l, hl, h3, h4⟩
      · exact Or.inl h3
      · exact Or.inr ⟨l, hl, h3, by rw [(hdecset l hl (h.preds l hl (by rw [h3]; exact h1'))).1]; exact h4⟩
  · -- skipd
    intro t h1
    by_cases htu : t = u
    · subst htu; rw [upd_self] at h1
      obtain ⟨h2, h3⟩ := hsk h1
      exact ⟨h2, fun l hl hlt => by rw [(hdecset l hl (hpr l hl hlt)).1]; exact h3 l hl hlt⟩
    · rw [upd_ne _ _ htu] at h1
      obtain ⟨h2, h3⟩ := h.skipd t h1
      refine ⟨h2, fun l hl hlt => ?_⟩
      rw [(hdecset l hl (h.preds l hl (by rw [hlt, h1]; simp [Open, TaskStatus.code]))).1]; exact h3 l hl hlt
  · -- decsrc
    intro l hl hd
    by_cases hlu : l.src = u
    · rw [hlu, upd_self]; exact fun hx => hdd hx l hl hlu hd
    · rw [upd_ne _ _ hlu]; rw [(hoth l hl hlu).2] at hd; exact h.decsrc l hl hd
  · -- dom
    intro t ht
    by_cases htu : t = u
    · rw [htu]; exact hdom
    · rw [upd_ne _ _ htu] at ht; exact h.dom t ht
  · -- outs
    intro l hl h1 h2
    by_cases hlu : l.src = u
    · rw [hlu, upd_self] at h2 ⊢; exact hFd h2 l hl hlu
    · rw [hfin] at h1; rw [upd_ne _ _ hlu] at h2 ⊢
      rw [(hoth l hl hlu).2]; exact h.outs l hl (h1.resolve_right hlu) h2
  · -- ex
    intro t hst'
    by_cases htu : t = u
    · subst htu; rw [upd_self, upd_self]
      refine ⟨hn hst', fun hx => ?_⟩
      exfalso
      rcases hx with hx | hx
      · rw [hx] at hs; simp [Fin, TaskStatus.code] at hs
      · exact hx.not_fin hs
    · rw [upd_ne _ _ htu, upd_ne _ _ htu]; exact h.ex t hst'

/-- Entering a task whose incoming links are decided and none of which is followed. -/
theorem enterSkip {u : TaskId} {x : TaskEntry} {es : List TaskEntry} {rest : List (TaskId × List TaskEntry)} (h : GInv g single F W G)
    (wf : WellFormed g) (os : OrderSafe g)
    (hs : G.stk = (u, x :: es) :: rest) (hd : ∀ l ∈ g.links, l.dst = x.task.id → G.lk l.id ≠ .unset ∧ G.lk l.id ≠ .true)
    {lk dec : LinkId → LinkStatus} {es' : List TaskEntry} (hf : Finish g G x.task.id .skipped lk dec es')
    (hdd : ∀ l ∈ g.links, l.src = x.task.id → dec l.id ≠ .true)
    {obj : TaskId → Option Nat} (ho : ∀ t, obj t = none ↔ upd G.st x.task.id .skipped t = .notStarted)
    (hoD : ∀ t u o, obj t = some o → obj u = some o → t = u) {compl : Prop}
    (hc : compl ↔ G.compl ∨ ((∀ l ∈ g.links, l.src ≠ x.task.id) ∧
      ∀ t, upd G.st x.task.id .skipped t ≠ .notStarted → G.rel t = false → Fin (upd G.st x.task.id .skipped t))) :
    GInv g single F W ⟨obj, upd G.st x.task.id .skipped, G.rel, lk, dec, (x.task.id, es') :: (u, es) :: rest, upd G.pend x.task.id 0,
      upd G.ex x.task.id (G.ex x.task.id), compl⟩ := by
  obtain ⟨hop, hfu, hxu, hrel, l0, hl0, hl1, hl2, hl3⟩ := h.entry hs
  obtain ⟨hes, hrest⟩ := h.others hs
  have hm : (u, x :: es) ∈ G.stk := by rw [hs]; simp
  have hdec : ∀ l ∈ g.links, l.dst = x.task.id → G.dec l.id ≠ .unset ∧ G.dec l.id ≠ .true := by
    intro l hl h1
    rw [← h.lkdec _ (hd l hl h1).1]; exact hd l hl h1
  have hcode : 4 ≤ x.enterCode := by
    apply Decidable.byContradiction
    intro hc
    exact (hdec l0 hl0 hl2).2 (hl3.1 (by omega))
  have hpw := List.pairwise_cons.1 (h.frames _ hm).pw
  have hup := h.up
  rw [hs, List.pairwise_cons] at hup
  refine finishing h wf os hf hop.not_fin (by simp [Fin, TaskStatus.code]) ?_ ?_ ?_ ?_ ?_ ?_ ?_ ?_ ?_ (fun hc => absurd rfl hc) ?_ (fun _ => hdd)
    (fun hc => absurd rfl hc) ?_ (fun _ => rfl) ho hoD (fun hst => (h.ex _ hst).1) hc
  · intro f hf
    rcases List.mem_cons.1 hf with rfl | hf
    · exact ⟨_, hm, rfl, fun y hy => ⟨List.mem_cons_of_mem _ hy, hes y hy⟩⟩
    · exact ⟨f, by rw [hs]; exact List.mem_cons_of_mem _ hf, rfl, fun y hy => ⟨hy, hrest f hf y hy⟩⟩
  · have := h.ownD; rw [hs] at this; simpa using this
  · intro f hf
    rcases List.mem_cons.1 hf with rfl | hf
    · exact (h.frames _ hm).tail
    · exact h.frames f (by rw [hs]; exact List.mem_cons_of_mem _ hf)
  · intro f hf y hy hne
    rw [hs] at hf
    rcases List.mem_cons.1 hf with rfl | hf
    · rcases List.mem_cons.1 hy with rfl | hy
      · exact absurd rfl hne
      · exact ⟨(u, es), by simp, rfl, hy⟩
    · exact ⟨f, List.mem_cons_of_mem _ hf, rfl, hy⟩
  · rw [List.pairwise_cons]; exact ⟨hup.1, hup.2⟩
  · intro f hf y hy hp
    rcases List.mem_cons.1 hf with rfl | hf
    · exact (hpw.1 y hy).2.2 hcode hp
    · refine hup.1 f hf y hy ?_
      dsimp only
      rw [← hl1]
      exact .step hl0 (by rw [hl2]; exact hp)
  · intro f hf y hy
    rcases List.mem_cons.1 hf with rfl | hf
    · exact Nat.le_trans hcode (hpw.1 y hy).2.1
    · exact h.low f (by rw [hs]; exact hf) y hy
  · intro l hl h1; exact (h.lkset l hl).1 (hdec l hl h1).1
  · intro hc; exact absurd hl2 (hc l0 hl0)
  · exact fun _ => ⟨fun hc => hc l0 hl0 hl2, fun l hl h1 => (hdec l hl h1).2⟩
  · obtain ⟨td, htd, h1⟩ := wf.dst l0 hl0
    exact ⟨td, htd, h1.trans hl2⟩

/-- A task that was executed finishes. -/
theorem finish {u : TaskId} {s : TaskStatus} (h : GInv g single F W G)
    (wf : WellFormed g) (os : OrderSafe g) (hs : G.stk = []) (hu : Live (G.st u)) (hfs : s = .done ∨ s = .failed)
    {lk dec : LinkId → LinkStatus} {es' : List TaskEntry} (hf : Finish g G u s lk dec es')
    (hFd : ∀ l ∈ g.links, l.src = u → F s l (dec l.id))
    {n : Nat} (hn : single u → n ≤ 1) {compl : Prop}
    (hc : compl ↔ G.compl ∨ ((∀ l ∈ g.links, l.src ≠ u) ∧
      ∀ t, upd G.st u s t ≠ .notStarted → G.rel t = false → Fin (upd G.st u s t))) :
    GInv g single F W ⟨G.obj, upd G.st u s, G.rel, lk, dec, [(u, es')], upd G.pend u 0, upd G.ex u n, compl⟩ := by
  have hno : ¬ Open (G.st u) := hu.not_open
  have hsn : s ≠ .skipped := by rcases hfs with rfl | rfl <;> exact fun hc => nomatch hc
  have hsn0 : s ≠ .notStarted := by rcases hfs with rfl | rfl <;> exact fun hc => nomatch hc
  refine finishing h wf os hf hu.not_fin (by rcases hfs with rfl | rfl <;> simp [Fin, TaskStatus.code])
    (by simp) (by simp) (by simp) (by rw [hs]; simp) List.Pairwise.nil (by simp) (by simp)
    (fun l hl hlu => h.preds l hl (by rw [hlu]; exact hno)) (fun _ => hno) (fun _ => h.execd u hno hu.ne_skipped)
    (fun hc => absurd hc hsn) (fun hc => absurd hc hsn) (fun _ => hFd) ?_ ?_ ?_ h.objD hn hc
  · exact h.dom u hu.ne_notStarted
  · intro hcc
    exact absurd ((h.comp2 hcc).1 u) fun hx => hx.elim hu.not_open hu.not_fin
  · intro t
    rw [h.objs]
    by_cases htu : t = u
    · subst htu; rw [upd_self]; exact ⟨fun hc => absurd hc hu.ne_notStarted, fun hc => absurd hc hsn0⟩
    · rw [upd_ne _ _ htu]

/-- A task that was executed waits. -/
theorem toWait {u : TaskId} (h : GInv g single F W G) (hu : Live (G.st u)) {n k : Nat} (hn : single u → n ≤ 1) (hk : W u k) :
    GInv g single F W { G with st := upd G.st u .waiting, pend := upd G.pend u k, ex := upd G.ex u n } := by
  have hfin : ∀ t, Fin (upd G.st u .waiting t) ↔ Fin (G.st t) := by
    intro t
    by_cases ht : t = u
    · subst ht; rw [upd_self]; exact ⟨fun hc => by simp [Fin, TaskStatus.code] at hc, fun hc => absurd hc hu.not_fin⟩
    · rw [upd_ne _ _ ht]
  have hopen : ∀ t, Open (upd G.st u .waiting t) ↔ Open (G.st t) := by
    intro t
    by_cases ht : t = u
    · subst ht; rw [upd_self]; exact ⟨fun hc => by simp [Open, TaskStatus.code] at hc, fun hc => absurd hc hu.not_open⟩
    · rw [upd_ne _ _ ht]
  have hskip : ∀ t, upd G.st u .waiting t = .skipped ↔ G.st t = .skipped := by
    intro t
    by_cases ht : t = u
    · subst ht; rw [upd_self]; exact ⟨(fun hc => nomatch hc), fun hc => absurd hc hu.ne_skipped⟩
    · rw [upd_ne _ _ ht]
  have hns : ∀ t, upd G.st u .waiting t = .notStarted ↔ G.st t = .notStarted := by
    intro t
    by_cases ht : t = u
    · subst ht; rw [upd_self]; exact ⟨(fun hc => nomatch hc), fun hc => absurd hc hu.ne_notStarted⟩
    · rw [upd_ne _ _ ht]
  refine ⟨?_, h.ownD, ?_, h.frames, ?_, ?_, h.lkdec, ?_, ?_, h.up, h.low, ?_, ?_, ?_, ?_, ?_, ?_, ?_, ?_, ?_, ?_, ?_, ?_, h.objD, ?_⟩ <;> dsimp only
  · intro f hf; rw [hfin]; exact h.ownFin f hf
  · intro t ht; rw [hfin]; exact h.relFin t ht
  · intro f hf x hx; rw [hopen]; exact h.tgt f hf x hx
  · intro l hl; rw [hopen, hfin]; exact h.preds l hl
  · intro l hl; rw [hfin]; exact h.lkset l hl
  · intro l hl; rw [hfin]; exact h.lkrel l hl
  · intro t ht hst hp
    exact h.prog t ((hopen _).1 ht) hst (fun l hl h1 => (hfin _).1 (hp l hl h1))
  · intro l hl; rw [hfin, hns]; exact h.fresh l hl
  · intro t ht hst; rw [hopen]; exact h.start t ht hst
  · intro t
    by_cases ht : t = u
    · subst ht; rw [upd_self, upd_self]; exact ⟨(fun hc => nomatch hc), fun _ => hk, fun _ hc => absurd rfl hc⟩
    · rw [upd_ne _ _ ht, upd_ne _ _ ht]; exact h.pend t
  · intro hall; exact h.comp1 (fun t ht => (hfin _).1 (hall t ht))
  · intro hc
    exact absurd ((h.comp2 hc).1 u) fun hx => hx.elim hu.not_open hu.not_fin
  · intro t; rw [hopen, Ne, hskip]; exact h.execd t
  · intro t; rw [hskip]; exact h.skipd t
  · intro l hl; rw [Ne, hskip]; exact h.decsrc l hl
  · intro t; rw [Ne, hns]; exact h.dom t
  · intro l hl h1 h2
    have hne : l.src ≠ u := by
      intro hc; rw [hc, upd_self] at h1; simp [Fin, TaskStatus.code] at h1
    rw [upd_ne _ _ hne] at h1 h2 ⊢; exact h.outs l hl h1 h2
  · intro t; rw [hns]; exact h.objs t
  · intro t hst
    by_cases ht : t = u
    · subst ht; rw [upd_self, upd_self]
      exact ⟨hn hst, fun hx => hx.elim (fun hy => nomatch hy) (fun hy => absurd hy (by simp [Open, TaskStatus.code]))⟩
    · rw [upd_ne _ _ ht, upd_ne _ _ ht]; exact h.ex t hst

/-- A task that was executed is to be executed again. -/
theorem again {u : TaskId} (h : GInv g single F W G) {n : Nat} (hn : ¬ single u) : GInv g single F W { G with ex := upd G.ex u n } := by
  refine ⟨h.ownFin, h.ownD, h.relFin, h.frames, h.tgt, h.preds, h.lkdec, h.lkset, h.lkrel, h.up, h.low, h.prog, h.fresh, h.start, h.pend,
    h.comp1, h.comp2, h.execd, h.skipd, h.decsrc, h.dom, h.outs, h.objs, h.objD, fun t hst => ?_⟩
  have : t ≠ u := fun hc => hn (hc ▸ hst)
  dsimp only
  rw [upd_ne _ _ this]; exact h.ex t hst

/-! ### Consequences -/

/-- When nothing is left to do, every task has finished. -/
theorem quiet (h : GInv g single F W G) (wf : WellFormed g) (ac : Acyclic g) (hs : G.stk = []) (hr : ∀ t, G.st t ≠ .ready ∧ G.st t ≠ .waiting) :
    ∀ t ∈ g.tasks, Fin (G.st t.id) := by
  obtain ⟨rank, hrank⟩ := ac
  have key : ∀ n : Nat, ∀ t ∈ g.tasks, rank t.id < n → Fin (G.st t.id) := by
    intro n
    induction n with
    | zero => intro t _ h1; omega
    | succ n ih =>
      intro t ht h1
      by_cases hop : Open (G.st t.id)
      · exfalso
        by_cases hst : IsStart g t.id
        · exact h.start t ht hst hop
        · obtain ⟨f, hf, _⟩ := h.prog t.id hop hst fun l hl hlt => by
            obtain ⟨ts, hts, hsl⟩ := wf.src l hl
            have := hrank l hl
            rw [← hsl]
            exact ih ts hts (by rw [hsl]; rw [hlt] at this; omega)
          rw [hs] at hf; simp at hf
      · have h2 := (hr t.id).1
        have h3 := (hr t.id).2
        revert hop h2 h3
        cases G.st t.id <;> simp [Open, Fin, TaskStatus.code]
  exact fun t ht => key (rank t.id + 1) t ht (by omega)

/-- Only tasks that have to run are executed. -/
theorem runs (h : GInv g single F W G) (ac : Acyclic g) {t : TaskId} (h1 : ¬ Open (G.st t)) (h2 : G.st t ≠ .skipped) :
    Runs g (fun l => G.dec l.id = .true) t := by
  obtain ⟨rank, hrank⟩ := ac
  have key : ∀ n : Nat, ∀ t, rank t < n → ¬ Open (G.st t) → G.st t ≠ .skipped → Runs g (fun l => G.dec l.id = .true) t := by
    intro n
    induction n with
    | zero => intro t h1; omega
    | succ n ih =>
      intro t h1 h2 h3
      rcases h.execd t h2 h3 with h4 | ⟨l, hl, h4, h5⟩
      · exact .start (h.dom t fun hc => h2 (by rw [hc]; simp [Open, TaskStatus.code])) h4
      · subst h4
        have hf : Fin (G.st l.src) := (h.lkset l hl).1 (by rw [h5]; exact fun hc => nomatch hc)
        exact .link hl h5 (ih _ (by have := hrank l hl; omega) (fun hc => hc.not_fin hf) (h.decsrc l hl h5))
  exact key (rank t + 1) t (by omega) h1 h2

/-- A completed flow has executed, and finished, every task that has to run. -/
theorem completed (h : GInv g single F W G) (hc : G.compl) {t : TaskId} (hr : Runs g (fun l => G.dec l.id = .true) t) :
    Fin (G.st t) ∧ G.st t ≠ .skipped := by
  have h1 := (h.comp2 hc).1 t
  cases hr with
  | start ht hs =>
    obtain ⟨td, htd, rfl⟩ := ht
    exact ⟨h1.resolve_left (h.start td htd hs), fun hx => (h.skipd _ hx).1 hs⟩
  | link hl hf _ => exact ⟨(h.comp2 hc).2 _ hl hf, fun hx => (h.skipd _ hx).2 _ hl rfl hf⟩

end GInv

end Flow.GraphM
