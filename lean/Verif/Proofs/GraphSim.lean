import Verif.Proofs.Graph
import Verif.Proofs.Steps

/-
The abstract machine of `Verif.Proofs.Graph` describes a flow instance: operations on the instance correspond to changes of
the abstract state.
-/

namespace Flow.GraphM
open Spec

/-- An evaluation of the activity of task `t`. -/
def isEvalOf (t : TaskRef) : Ev → Bool
  | .evalAct _ u => u = t
  | _ => false

/-- The instance is in the abstract state. -/
structure SimI (I : Inst) (G : GS) : Prop where
  obj : ∀ (t : TaskId) (o : Nat), G.obj t = some o → ∃ ob : Obj, I.objs[o]? = some ob ∧ ob.task = ⟨false, t⟩ ∧ ob.status = G.st t
  objI : ∀ (o : Nat) (ob : Obj), I.objs[o]? = some ob → ob.task.eh = false ∧ G.obj ob.task.id = some o
  tab : ∀ t : TaskId, (G.rel t = true → I.tasks.get? t = none) ∧ (G.rel t = false → I.tasks.get? t = G.obj t)
  lk : ∀ k, I.linkSt k = G.lk k
  dec : ∀ k s, .linkStatus k s ∈ I.trace ↔ s = G.dec k ∧ s ≠ .unset
  ready : ∀ t, (∃ o, .taskStatus o ⟨false, t⟩ .ready ∈ I.trace) ↔ ¬ Open (G.st t) ∧ G.st t ≠ .skipped
  ex : ∀ t, I.trace.countP (isEvalOf ⟨false, t⟩) = G.ex t
  compl : (G.compl ↔ I.status = .completed) ∧ (I.status = .completed ∨ I.status = .active)

theorem modify_ne {α : Type} {l : List α} {f : α → α} {p o : Nat} (h : p ≠ o) : (l.modify o f)[p]? = l[p]? := by
  rw [List.getElem?_modify]; simp [Ne.symm h]

namespace SimI

variable {I : Inst} {G : GS}

/-- The object of a task is in a valid place. -/
theorem lt (h : SimI I G) {t : TaskId} {o : Nat} (ho : G.obj t = some o) : o < I.objs.length := by
  obtain ⟨ob, h1, _⟩ := h.obj t o ho
  exact (List.getElem?_eq_some_iff.1 h1).1

theorem inj (h : SimI I G) {t u : TaskId} {o : Nat} (ht : G.obj t = some o) (hu : G.obj u = some o) : t = u := by
  obtain ⟨ob, h1, h2, _⟩ := h.obj t o ht
  obtain ⟨ob', h3, h4, _⟩ := h.obj u o hu
  rw [h1] at h3; cases h3
  rw [h2] at h4; cases h4; rfl

/-- Changing nothing the abstract state sees. -/
theorem congr {I' : Inst} (h : SimI I G) (ho : ∀ p : Nat, (I'.objs[p]?).map (fun x : Obj => (x.task, x.status)) = (I.objs[p]?).map (fun x : Obj => (x.task, x.status)))
    (ht : I'.tasks = I.tasks) (hl : I'.links = I.links) (hs : I'.status = I.status) {evs : List Ev} (htr : I'.trace = evs ++ I.trace)
    (hev : ∀ ev ∈ evs, (∀ k s, ev ≠ .linkStatus k s) ∧ (∀ o t s, ev ≠ .taskStatus o t s) ∧ ∀ t, isEvalOf t ev = false) : SimI I' G := by
  refine ⟨?_, ?_, fun t => by rw [ht]; exact h.tab t, fun k => ?_, ?_, ?_, ?_, by rw [hs]; exact h.compl⟩
  · intro t o hto
    obtain ⟨ob, h1, h2, h3⟩ := h.obj t o hto
    have := ho o
    rw [h1] at this
    cases h4 : I'.objs[o]? with
    | none => rw [h4] at this; simp at this
    | some ob' =>
      rw [h4] at this; simp at this
      exact ⟨ob', rfl, this.1.trans h2, this.2.trans h3⟩
  · intro o ob hob
    have := ho o
    rw [hob] at this
    cases h4 : I.objs[o]? with
    | none => rw [h4] at this; simp at this
    | some ob' =>
      rw [h4] at this; simp at this
      rw [this.1]; exact h.objI o ob' h4
  · rw [← h.lk k]; unfold Inst.linkSt; rw [hl]
  · intro k s
    rw [htr, List.mem_append, ← h.dec k s]
    exact ⟨fun hx => hx.elim (fun hy => absurd rfl ((hev _ hy).1 k s)) id, Or.inr⟩
  · intro t
    rw [← h.ready t, htr]
    constructor
    · rintro ⟨o, ho⟩
      rcases List.mem_append.1 ho with h1 | h1
      · exact absurd rfl ((hev _ h1).2.1 o _ _)
      · exact ⟨o, h1⟩
    · rintro ⟨o, ho⟩; exact ⟨o, List.mem_append_right _ ho⟩
  · intro t
    rw [← h.ex t, htr, List.countP_append]
    have : evs.countP (isEvalOf ⟨false, t⟩) = 0 := by
      rw [List.countP_eq_zero]; intro a ha; rw [(hev a ha).2.2]; simp
    omega

/-- Finding the object of a task, or creating it. -/
theorem findOrCreate (h : SimI I G) {t : TaskId} (hr : G.rel t = false) (hn : G.obj t = none → G.st t = .notStarted) :
    ∃ obj : TaskId → Option Nat, SimI (I.findOrCreateTask ⟨false, t⟩).1 { G with obj := obj } ∧
      obj t = some (I.findOrCreateTask ⟨false, t⟩).2 ∧ (∀ u, u ≠ t → obj u = G.obj u) ∧ (∀ o, G.obj t = some o → obj t = some o) ∧
      (G.obj t = none → (I.findOrCreateTask ⟨false, t⟩).2 = I.objs.length) := by
  have htab := (h.tab t).2 hr
  unfold Inst.findOrCreateTask
  dsimp only
  cases hg : I.tasks.get? t with
  | some o =>
    dsimp only
    rw [hg] at htab
    exact ⟨G.obj, h, htab.symm, fun _ _ => rfl, fun _ hx => hx, fun hx => by rw [hx] at htab; cases htab⟩
  | none =>
    dsimp only
    rw [hg] at htab
    refine ⟨upd G.obj t (some I.objs.length), ?_, upd_self .., fun u hu => upd_ne _ _ hu, fun o hx => by (rw [hx] at htab; cases htab), fun _ => rfl⟩
    refine ⟨?_, ?_, ?_, h.lk, ?_, ?_, ?_, h.compl⟩ <;> dsimp only
    · intro u o huo
      by_cases hu : u = t
      · subst hu
        rw [upd_self] at huo; cases huo
        exact ⟨{ task := ⟨false, u⟩ }, by simp, rfl, (hn htab.symm).symm⟩
      · rw [upd_ne _ _ hu] at huo
        obtain ⟨ob, h1, h2⟩ := h.obj u o huo
        exact ⟨ob, by rw [List.getElem?_append_left (h.lt huo)]; exact h1, h2⟩
    · intro o ob hob
      rw [List.getElem?_append] at hob
      split at hob
      · obtain ⟨h1, h2⟩ := h.objI o ob hob
        refine ⟨h1, ?_⟩
        rw [upd_ne _ _ (fun hc => by rw [hc] at h2; rw [h2] at htab; cases htab)]; exact h2
      · rename_i hlt
        have : o = I.objs.length := by
          apply Decidable.byContradiction
          intro hne
          rw [List.getElem?_eq_none (by simp; omega)] at hob; cases hob
        subst this
        simp at hob
        subst hob
        exact ⟨rfl, upd_self ..⟩
    · intro u
      rw [AMap.get?_set]
      by_cases hu : u = t
      · subst hu; rw [if_pos rfl, hr, upd_self]; simp
      · rw [if_neg (Ne.symm hu), upd_ne _ _ hu]; exact h.tab u
    · intro k s
      rw [← h.dec k s]; simp
    · intro u
      rw [← h.ready u]; simp
    · intro u
      rw [← h.ex u, List.countP_cons_of_neg (by simp [isEvalOf])]

/-- Setting the status of a task. -/
theorem setStatus (h : SimI I G) {t : TaskId} {o : Nat} (ho : G.obj t = some o) {s : TaskStatus}
    (hs : (s = .ready ∨ (¬ Open (G.st t) ∧ G.st t ≠ .skipped)) ↔ (¬ Open s ∧ s ≠ .skipped)) :
    SimI (I.setTaskStatus o s) { G with st := upd G.st t s } := by
  obtain ⟨ob, h1, h2, h3⟩ := h.obj t o ho
  unfold Inst.setTaskStatus
  rw [h1]
  dsimp only
  refine ⟨?_, ?_, h.tab, h.lk, ?_, ?_, ?_, h.compl⟩ <;> dsimp only
  · intro u p hup
    obtain ⟨ob', h4, h5, h6⟩ := h.obj u p hup
    by_cases hu : u = t
    · subst hu
      rw [ho] at hup; cases hup
      rw [h1] at h4; cases h4
      exact ⟨{ ob with status := s }, by rw [List.getElem?_modify_eq, h1]; rfl, h2, by rw [upd_self]⟩
    · have : p ≠ o := fun hc => hu (h.inj hup (hc ▸ ho))
      exact ⟨ob', by rw [modify_ne this]; exact h4, h5, by rw [upd_ne _ _ hu]; exact h6⟩
  · intro p ob' hob
    by_cases hp : p = o
    · subst hp
      rw [List.getElem?_modify_eq, h1] at hob
      simp at hob
      subst hob
      exact h.objI p ob h1
    · rw [modify_ne hp] at hob
      exact h.objI p ob' hob
  · intro k s'
    rw [← h.dec k s']; simp
  · intro u
    by_cases hu : u = t
    · subst hu
      rw [upd_self, ← hs, ← h.ready u, h2]
      constructor
      · rintro ⟨p, hp⟩
        rcases List.mem_cons.1 hp with h4 | h4
        · cases h4; exact Or.inl rfl
        · exact Or.inr ⟨p, h4⟩
      · rintro (rfl | ⟨p, hp⟩)
        · exact ⟨o, by simp⟩
        · exact ⟨p, List.mem_cons_of_mem _ hp⟩
    · rw [upd_ne _ _ hu, ← h.ready u, h2]
      constructor
      · rintro ⟨p, hp⟩
        rcases List.mem_cons.1 hp with h4 | h4
        · cases h4; exact absurd rfl hu
        · exact ⟨p, h4⟩
      · rintro ⟨p, hp⟩; exact ⟨p, List.mem_cons_of_mem _ hp⟩
  · intro u
    rw [← h.ex u, List.countP_cons_of_neg (by simp [isEvalOf])]

theorem findLink (h : SimI I G) (k : LinkId) : SimI (I.findLink k) G := by
  have hl := fun l => findLink_linkSt I k l
  unfold Inst.findLink at hl ⊢
  split
  · exact h
  · rename_i hk
    rw [hk] at hl
    dsimp only at hl
    refine ⟨h.obj, h.objI, h.tab, fun l => (hl l).trans (h.lk l), ?_, ?_, ?_, h.compl⟩ <;> dsimp only
    · intro k s; rw [← h.dec k s]; simp
    · intro u; rw [← h.ready u]; simp
    · intro u; rw [← h.ex u, List.countP_cons_of_neg (by simp [isEvalOf])]

theorem findLinks (h : SimI I G) (ls : List LinkDef) : SimI (I.findLinks ls) G := by
  unfold Inst.findLinks
  induction ls generalizing I with
  | nil => exact h
  | cons x xs ih => exact ih (h.findLink x.id)

/-- Decisions of a list of rows. -/
def decRows (d : LinkId → LinkStatus) (rows : List (LinkDef × LinkStatus × Nat)) : LinkId → LinkStatus :=
  rows.foldl (fun d r => upd d r.1.id r.2.1) d

theorem decRows_ne {d : LinkId → LinkStatus} {rows : List (LinkDef × LinkStatus × Nat)} {k : LinkId} (h : ∀ r ∈ rows, r.1.id ≠ k) :
    decRows d rows k = d k := by
  unfold decRows
  induction rows generalizing d with
  | nil => rfl
  | cons r rs ih =>
    rw [List.foldl_cons, ih fun r' hr' => h r' (List.mem_cons_of_mem _ hr')]
    exact upd_ne _ _ (Ne.symm (h r (by simp)))

theorem decRows_mem {d : LinkId → LinkStatus} {rows : List (LinkDef × LinkStatus × Nat)} (hn : (rows.map (fun r => r.1.id)).Nodup)
    {r : LinkDef × LinkStatus × Nat} (hr : r ∈ rows) : decRows d rows r.1.id = r.2.1 := by
  induction rows generalizing d with
  | nil => simp at hr
  | cons a as ih =>
    rw [List.map_cons, List.nodup_cons] at hn
    rcases List.mem_cons.1 hr with rfl | hr
    · show decRows (upd d r.1.id r.2.1) as r.1.id = r.2.1
      rw [decRows_ne fun r' hr' hc => hn.1 (List.mem_map.2 ⟨r', hr', hc⟩), upd_self]
    · exact ih (d := upd d a.1.id a.2.1) hn.2 hr

/-- Deciding a link. -/
theorem setLink (h : SimI I G) (k : LinkId) (s : LinkStatus) (hs : s ≠ .unset) (hk : G.dec k = .unset) :
    SimI (I.setLink k s) { G with lk := upd G.lk k s, dec := upd G.dec k s } := by
  refine ⟨h.obj, h.objI, h.tab, fun l => ?_, ?_, ?_, ?_, h.compl⟩
  · dsimp only
    rw [Inst.linkSt_setLink]
    unfold upd
    by_cases hl : l = k
    · subst hl; simp
    · simp only [if_neg hl, if_neg (Ne.symm hl)]; exact h.lk l
  · intro l s'
    show _ ∈ Ev.linkStatus k s :: I.trace ↔ _
    rw [List.mem_cons, h.dec l s']
    dsimp only
    by_cases hl : l = k
    · subst hl
      rw [upd_self, hk]
      constructor
      · rintro (h1 | ⟨h1, h2⟩)
        · cases h1; exact ⟨rfl, hs⟩
        · exact absurd h1 h2
      · rintro ⟨rfl, _⟩; exact Or.inl rfl
    · rw [upd_ne _ _ hl]
      constructor
      · rintro (h1 | h1)
        · cases h1; exact absurd rfl hl
        · exact h1
      · exact Or.inr
  · intro u
    rw [← h.ready u]
    show (∃ o, _ ∈ Ev.linkStatus k s :: I.trace) ↔ _
    simp
  · intro u
    rw [← h.ex u]
    show (Ev.linkStatus k s :: I.trace).countP _ = _
    rw [List.countP_cons_of_neg (by simp [isEvalOf])]

theorem applyRows (h : SimI I G) (rows : List (LinkDef × LinkStatus × Nat)) (hn : (rows.map (fun r => r.1.id)).Nodup)
    (hs : ∀ r ∈ rows, r.2.1 ≠ .unset ∧ G.dec r.1.id = .unset) :
    SimI (I.applyRows rows) { G with lk := decRows G.lk rows, dec := decRows G.dec rows } := by
  unfold Inst.applyRows
  induction rows generalizing I G with
  | nil => exact h
  | cons r rs ih =>
    rw [List.map_cons, List.nodup_cons] at hn
    rw [List.foldl_cons]
    have h1 := h.setLink r.1.id r.2.1 (hs r (by simp)).1 (hs r (by simp)).2
    refine ih h1 hn.2 fun r' hr' => ⟨(hs r' (List.mem_cons_of_mem _ hr')).1, ?_⟩
    dsimp only
    rw [upd_ne _ _ (fun hc => hn.1 (List.mem_map.2 ⟨r', hr', hc⟩))]
    exact (hs r' (List.mem_cons_of_mem _ hr')).2

/-- Releasing a task. -/
theorem release (h : SimI I G) (t : TaskId) :
    SimI (I.release ⟨false, t⟩) { G with
      rel := upd G.rel t true
      lk := fun k => if ∃ l ∈ I.defn.fromLinks ⟨false, t⟩, l.id = k then .unset else G.lk k } := by
  unfold Inst.release
  dsimp only
  generalize I.defn.fromLinks ⟨false, t⟩ = ls
  have h0 : SimI { I with tasks := I.tasks.del t, trace := .taskRemoved t :: I.trace } { G with rel := upd G.rel t true } := by
    refine ⟨h.obj, h.objI, ?_, h.lk, ?_, ?_, ?_, h.compl⟩ <;> dsimp only
    · intro u
      rw [AMap.get?_del]
      by_cases hu : u = t
      · subst hu; rw [upd_self]; simp
      · rw [if_neg (Ne.symm hu), upd_ne _ _ hu]; exact h.tab u
    · intro k s; rw [← h.dec k s]; simp
    · intro u; rw [← h.ready u]; simp
    · intro u; rw [← h.ex u, List.countP_cons_of_neg (by simp [isEvalOf])]
  have key : ∀ (ls : List LinkDef) (J : Inst) (H : GS), SimI J H →
      SimI (ls.foldl (fun J l => { J with links := J.links.del l.id, trace := .linkRemoved l.id :: J.trace }) J)
        { H with lk := fun k => if ∃ l ∈ ls, l.id = k then .unset else H.lk k } := by
    intro ls
    induction ls with
    | nil => intro J H hJ; simpa using hJ
    | cons x xs ih =>
      intro J H hJ
      rw [List.foldl_cons]
      have h1 : SimI { J with links := J.links.del x.id, trace := .linkRemoved x.id :: J.trace }
          { H with lk := fun k => if x.id = k then .unset else H.lk k } := by
        refine ⟨hJ.obj, hJ.objI, hJ.tab, ?_, ?_, ?_, ?_, hJ.compl⟩ <;> dsimp only
        · intro k
          unfold Inst.linkSt
          dsimp only
          rw [AMap.get?_del]
          by_cases hk : x.id = k
          · simp [hk]
          · simp only [if_neg hk]; exact hJ.lk k
        · intro k s; rw [← hJ.dec k s]; simp
        · intro u; rw [← hJ.ready u]; simp
        · intro u; rw [← hJ.ex u, List.countP_cons_of_neg (by simp [isEvalOf])]
      have h2 := ih _ _ h1
      have : (fun k => if ∃ l ∈ xs, l.id = k then LinkStatus.unset else if x.id = k then .unset else H.lk k) =
          (fun k => if ∃ l ∈ x :: xs, l.id = k then LinkStatus.unset else H.lk k) := by
        funext k
        by_cases hk : ∃ l ∈ xs, l.id = k
        · rw [if_pos hk, if_pos]
          obtain ⟨l, hl, h⟩ := hk; exact ⟨l, List.mem_cons_of_mem _ hl, h⟩
        · rw [if_neg hk]
          by_cases hx : x.id = k
          · rw [if_pos hx, if_pos ⟨x, by simp, hx⟩]
          · rw [if_neg hx, if_neg]
            rintro ⟨l, hl, h⟩
            rcases List.mem_cons.1 hl with rfl | hl
            · exact hx h
            · exact hk ⟨l, hl, h⟩
      dsimp only at h2
      rw [this] at h2
      exact h2
  exact key ls _ _ h0

/-- An evaluation of the activity of a task. -/
theorem same {I' : Inst} (h : SimI I G) {t : TaskId} {o : Nat} (ho : G.obj t = some o) (hs : SameInst o I I') :
    ∃ n, SimI I' { G with ex := upd G.ex t n } ∧ n = I'.trace.countP (isEvalOf ⟨false, t⟩) := by
  obtain ⟨evs, h1, h2⟩ := hs.trace
  obtain ⟨ob, ho1, ho2, ho3⟩ := h.obj t o ho
  have hev : ∀ ev ∈ evs, (ev = .evalAct o ⟨false, t⟩ ∨ ev = .postAct o ⟨false, t⟩) := by
    intro ev hm
    obtain ⟨ob', h3, h4⟩ := h2 ev hm
    rw [ho1] at h3; cases h3
    rw [ho2] at h4; exact h4
  refine ⟨_, ?_, rfl⟩
  refine ⟨?_, ?_, fun u => by rw [hs.tasks]; exact h.tab u, fun k => ?_, ?_, ?_, ?_, by rw [hs.status]; exact h.compl⟩ <;> dsimp only
  · intro u p hup
    obtain ⟨ob1, h3, h4, h5⟩ := h.obj u p hup
    obtain ⟨ob2, h6, h7, h8⟩ := hs.task_eq' h3
    exact ⟨ob2, h6, h7.trans h4, h8.trans h5⟩
  · intro p ob1 hob
    obtain ⟨ob2, h6, h7, _⟩ := hs.task_eq hob
    rw [← h7]; exact h.objI p ob2 h6
  · rw [← h.lk k]; unfold Inst.linkSt; rw [hs.links]
  · intro k s
    rw [← h.dec k s, h1, List.mem_append]
    refine ⟨fun hx => hx.elim (fun hy => ?_) id, Or.inr⟩
    rcases hev _ hy with hz | hz <;> cases hz
  · intro u
    rw [← h.ready u, h1]
    constructor
    · rintro ⟨p, hp⟩
      rcases List.mem_append.1 hp with hp | hp
      · rcases hev _ hp with hz | hz <;> cases hz
      · exact ⟨p, hp⟩
    · rintro ⟨p, hp⟩; exact ⟨p, List.mem_append_right _ hp⟩
  · intro u
    by_cases hu : u = t
    · subst hu; rw [upd_self]
    · rw [upd_ne _ _ hu, ← h.ex u, h1, List.countP_append]
      have : evs.countP (isEvalOf ⟨false, u⟩) = 0 := by
        rw [List.countP_eq_zero]
        intro ev hm
        rcases hev ev hm with rfl | rfl
        · simp [isEvalOf, Ne.symm hu]
        · simp [isEvalOf]
      omega

/-- The flow completes. -/
theorem setCompleted (h : SimI I G) : SimI (I.setFlowStatus .completed) { G with compl := True } := by
  refine ⟨h.obj, h.objI, h.tab, h.lk, ?_, ?_, ?_, ?_⟩
  · intro k s; rw [← h.dec k s]; simp [Inst.setFlowStatus]
  · intro u; rw [← h.ready u]; simp [Inst.setFlowStatus]
  · intro u; rw [← h.ex u]; show (Ev.flowStatus _ :: I.trace).countP _ = _; rw [List.countP_cons_of_neg (by simp [isEvalOf])]
  · simp [Inst.setFlowStatus]

theorem setValue (h : SimI I G) (k : String) (v : Val) : SimI (I.setValue k v) G :=
  ⟨h.obj, h.objI, h.tab, h.lk, h.dec, h.ready, h.ex, h.compl⟩

/-- The completion test. -/
theorem allDone (h : SimI I G) (hn : I.tasks.keys.Nodup) : I.allDone = true ↔ ∀ t, G.obj t ≠ none → G.rel t = false → Fin (G.st t) := by
  unfold Inst.allDone
  rw [List.all_eq_true]
  constructor
  · intro hall t hob hr
    obtain ⟨o, ho⟩ : ∃ o, G.obj t = some o := by
      cases hx : G.obj t with
      | none => exact absurd hx hob
      | some o => exact ⟨o, rfl⟩
    have htab := (h.tab t).2 hr
    rw [ho] at htab
    have := hall (t, o) (AMap.mem_of_get? htab)
    obtain ⟨ob, h1, _, h3⟩ := h.obj t o ho
    dsimp only at this
    rw [h1] at this
    dsimp only at this
    rw [h3] at this
    exact of_decide_eq_true this
  · rintro hall ⟨t, o⟩ hp
    have hg := AMap.get?_of_mem_nodup hn hp
    cases hr : G.rel t with
    | true => rw [(h.tab t).1 hr] at hg; cases hg
    | false =>
      have htab := (h.tab t).2 hr
      rw [hg] at htab
      obtain ⟨ob, h1, _, h3⟩ := h.obj t o htab.symm
      dsimp only
      rw [h1]
      dsimp only
      rw [h3]
      have := hall t (by rw [← htab]; exact fun hc => nomatch hc) hr
      exact decide_eq_true this

end SimI

end Flow.GraphM
