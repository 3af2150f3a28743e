import Verif.Proofs.GraphInst

/-
A flow instance that was just started satisfies the invariant of `Verif.Proofs.Graph`.
-/

namespace Flow.GraphM
open Spec Eng

/-- The number of work items of a task object. -/
def cntOf (e : Eng) (i o : Nat) : Nat := e.queue.countP (fun w => decide (w.inst = i ∧ w.obj = o))

theorem cntOf_schedule (e : Eng) (i o : Nat) : cntOf (e.schedule i o) i = upd (cntOf e i) o (cntOf e i o + 1) := by
  funext p
  unfold cntOf Eng.schedule upd
  rw [List.countP_append, List.countP_cons]
  by_cases hp : p = o
  · subst hp; simp
  · rw [if_neg hp]; simp [Ne.symm hp]

/-- The start tasks `ds` were entered. -/
structure Started (I : Inst) (cnt : Nat → Nat) (G : GS) (ds : List TaskId) : Prop where
  sim : SimI I G
  st : ∀ t, (t ∈ ds → G.st t = .ready ∧ G.pend t = 1) ∧ (t ∉ ds → G.st t = .notStarted ∧ G.pend t = 0)
  rel : ∀ t, G.rel t = false
  lk : ∀ k, G.lk k = .unset
  dec : ∀ k, G.dec k = .unset
  stk : G.stk = []
  ex : ∀ t, G.ex t = 0
  compl : ¬ G.compl
  objs : ∀ t, G.obj t = none ↔ G.st t = .notStarted
  objD : ∀ t u o, G.obj t = some o → G.obj u = some o → t = u
  cnt1 : ∀ t o, G.obj t = some o → cnt o = G.pend t
  cnt2 : ∀ o, cnt o ≠ 0 → ∃ t, G.obj t = some o
  nodup : I.tasks.keys.Nodup

theorem Started.step {I : Inst} {cnt : Nat → Nat} {G : GS} {ds : List TaskId} (h : Started I cnt G ds) {t : TaskId} (ht : t ∉ ds)
    (hf : I.defn.fromLinks ⟨false, t⟩ = []) :
    ∃ o I' G', I.enterTask ⟨false, t⟩ = (I', o, .eval) ∧ I'.defn = I.defn ∧ Started I' (upd cnt o (cnt o + 1)) G' (t :: ds) := by
  have hst := ((h.st t).2 ht).1
  have hno : G.obj t = none := (h.objs t).2 hst
  obtain ⟨obj, o, I2, e1, e2, e3, e4, e5, e6, e7, e8, e9⟩ := h.sim.enter (h.rel t) (fun _ => hst) (by rw [hst]; simp [Open, TaskStatus.code])
  dsimp only at e9
  rw [hf] at e9
  obtain ⟨d1, _, d3, _⟩ := e9
  have hd : enterDecision (List.map (fun l : LinkDef => G.lk l.id) []) = .eval := by rfl
  have hI' := d3 hd
  have e10 := e2.setStatus (s := .ready) e3 (by dsimp only; rw [upd_self]; simp [Open, TaskStatus.code])
  have hupd : upd (upd G.st t .entered) t .ready = upd G.st t .ready := by
    funext t; unfold upd; split <;> rfl
  dsimp only at e10
  rw [hupd] at e10
  have ho := e6 hno
  have hnew : ∀ u p, G.obj u = some p → p ≠ o := fun u p hu hc => by
    have := h.sim.lt hu; omega
  have hc0 : cnt o = 0 := by
    apply Decidable.byContradiction
    intro hc
    obtain ⟨v, hv⟩ := h.cnt2 o hc
    exact hnew v o hv rfl
  have hobjt : ∀ u p, obj u = some p → u ≠ t → p ≠ o ∧ G.obj u = some p := by
    intro u p hu hut
    rw [e4 u hut] at hu
    exact ⟨hnew u p hu, hu⟩
  refine ⟨o, I2.setTaskStatus o .ready, { G with obj := obj, st := upd G.st t .ready, pend := upd G.pend t 1 }, ?_, ?_,
    ⟨e10.ctl _ _, fun u => ?_, h.rel, h.lk, h.dec, h.stk, h.ex, h.compl, fun u => ?_, fun u v p hu hv => ?_, fun u p hu => ?_, fun p hp => ?_, ?_⟩⟩
  · exact Prod.ext hI' (Prod.ext e1 (d1.trans hd))
  · rw [← e8]; unfold Inst.setTaskStatus; split <;> rfl
  · dsimp only
    by_cases hut : u = t
    · subst hut; rw [upd_self, upd_self]; exact ⟨fun _ => ⟨rfl, rfl⟩, fun hc => absurd (List.mem_cons_self ..) hc⟩
    · rw [upd_ne _ _ hut, upd_ne _ _ hut]
      refine ⟨fun hu => (h.st u).1 ((List.mem_cons.1 hu).resolve_left hut), fun hu => (h.st u).2 fun hc => hu (List.mem_cons_of_mem _ hc)⟩
  · dsimp only
    by_cases hut : u = t
    · subst hut; rw [upd_self, e3]; exact ⟨(fun hc => nomatch hc), (fun hc => nomatch hc)⟩
    · rw [upd_ne _ _ hut, e4 u hut]; exact h.objs u
  · dsimp only at hu hv
    by_cases hut : u = t
    · subst hut
      rw [e3] at hu; cases hu
      exact Decidable.byContradiction fun hc => (hobjt v o hv (Ne.symm hc)).1 rfl
    · obtain ⟨h1, h2⟩ := hobjt u p hu hut
      by_cases hvt : v = t
      · subst hvt; rw [e3] at hv; cases hv; exact absurd rfl h1
      · exact h.objD _ _ _ h2 (hobjt v p hv hvt).2
  · dsimp only at hu ⊢
    by_cases hut : u = t
    · subst hut; rw [e3] at hu; cases hu; rw [upd_self, upd_self, hc0]
    · obtain ⟨h1, h2⟩ := hobjt u p hu hut
      rw [upd_ne _ _ h1, upd_ne _ _ hut]; exact h.cnt1 u p h2
  · by_cases hpo : p = o
    · subst hpo; exact ⟨t, e3⟩
    · rw [upd_ne _ _ hpo] at hp
      obtain ⟨u, hu⟩ := h.cnt2 p hp
      refine ⟨u, ?_⟩
      dsimp only
      rw [e4 u (fun hc => by rw [hc, hno] at hu; cases hu)]; exact hu
  · rw [setTaskStatus_tasks]; exact e7 h.nodup

variable {env : Env}

/-- Entering start tasks. -/
theorem Started.enter (hset : ∀ e i o, env.settingsOk e i o = true) {i : Nat} (ts : List TaskId) {e : Eng} {I : Inst} {G : GS} {ds : List TaskId}
    (hI : e.insts[i]? = some I) (h : Started I (cntOf e i) G ds) (hn : ts.Nodup) (hd : ∀ t ∈ ts, t ∉ ds)
    (hf : ∀ t ∈ ts, I.defn.fromLinks ⟨false, t⟩ = []) :
    ∃ I' G' ds', (enterStart env e i (ts.map (fun t => ⟨⟨false, t⟩, 0⟩))).insts[i]? = some I' ∧ I'.defn = I.defn ∧
      Started I' (cntOf (enterStart env e i (ts.map (fun t => ⟨⟨false, t⟩, 0⟩))) i) G' ds' ∧ ∀ t, t ∈ ds' ↔ t ∈ ts ∨ t ∈ ds := by
  induction ts generalizing e I G ds with
  | nil => exact ⟨I, G, ds, hI, rfl, h, fun t => by simp⟩
  | cons t ts ih =>
    rw [List.nodup_cons] at hn
    obtain ⟨o, I1, G1, h1, h2, h3⟩ := h.step (hd t (List.mem_cons_self ..)) (hf t (List.mem_cons_self ..))
    rw [List.map_cons]
    unfold Eng.enterStart
    rw [hI]
    dsimp only
    rw [h1]
    dsimp only
    rw [if_pos (hset _ _ _)]
    have hI1 : ((e.modI i (fun _ => I1)).schedule i o).insts[i]? = some I1 := modI_self hI _
    have h4 : Started I1 (cntOf ((e.modI i (fun _ => I1)).schedule i o) i) G1 (t :: ds) := by
      rw [cntOf_schedule]; exact h3
    obtain ⟨I', G', ds', a1, a2, a3, a4⟩ := ih hI1 h4 hn.2
      (fun u hu hc => by
        rcases List.mem_cons.1 hc with rfl | hc
        · exact hn.1 hu
        · exact hd u (List.mem_cons_of_mem _ hu) hc)
      (fun u hu => by rw [h2]; exact hf u (List.mem_cons_of_mem _ hu))
    refine ⟨I', G', ds', a1, a2.trans h2, a3, fun u => ?_⟩
    rw [a4]; simp only [List.mem_cons]
    constructor
    · rintro (h | h | h)
      · exact Or.inl (Or.inr h)
      · exact Or.inl (Or.inl h)
      · exact Or.inr h
    · rintro ((h | h) | h)
      · exact Or.inr (Or.inl h)
      · exact Or.inl h
      · exact Or.inr (Or.inr h)

/-- All start tasks were entered. -/
theorem Started.inv {I : Inst} {cnt : Nat → Nat} {G : GS} {ds : List TaskId} {g : Graph} {single : TaskId → Prop}
    {F : TaskStatus → LinkDef → LinkStatus → Prop} {W : TaskId → Nat → Prop} (h : Started I cnt G ds) (hg : I.defn.main = g)
    (hds : ∀ t, t ∈ ds ↔ (∃ td ∈ g.tasks, td.id = t) ∧ IsStart g t) : IS g single F W I cnt G := by
  have hnf : ∀ t, ¬ Fin (G.st t) := by
    intro t
    by_cases ht : t ∈ ds
    · rw [((h.st t).1 ht).1]; simp [Fin, TaskStatus.code]
    · rw [((h.st t).2 ht).1]; simp [Fin, TaskStatus.code]
  have hop : ∀ t, Open (G.st t) ↔ t ∉ ds := by
    intro t
    by_cases ht : t ∈ ds
    · rw [((h.st t).1 ht).1]; simp [Open, TaskStatus.code, ht]
    · rw [((h.st t).2 ht).1]; simp [Open, TaskStatus.code, ht]
  have hnot : ∀ f : TaskId × List TaskEntry, f ∉ G.stk := by intro f; rw [h.stk]; simp
  have hun : ∀ k, ¬ (G.dec k = .true) := by intro k; rw [h.dec]; exact fun hc => nomatch hc
  refine ⟨hg, ⟨fun f hf => absurd hf (hnot f), by rw [h.stk]; simp, fun t ht => (by rw [h.rel] at ht; cases ht), fun f hf => absurd hf (hnot f),
    fun f hf => absurd hf (hnot f), ?_, fun k hk => absurd (h.lk k) hk, ?_, fun l _ hc => absurd hc (hnf _), by rw [h.stk]; exact .nil,
    fun f hf => ?_, ?_, fun l _ hc => absurd hc (hnf _), ?_, ?_, ?_, fun hc => absurd hc h.compl, ?_, ?_, fun l _ hc => absurd hc (hun _), ?_,
    fun l _ hc => absurd hc (hnf _), h.objs, h.objD, fun t _ => ⟨by rw [h.ex]; omega, fun _ => h.ex t⟩⟩, h.sim, h.cnt1, h.cnt2, h.nodup⟩
  · intro l hl hc
    rw [hop, Classical.not_not] at hc
    exact absurd rfl (((hds _).1 hc).2 l hl)
  · intro l _
    exact ⟨fun hc => absurd (h.dec _) hc, fun hc => absurd hc (hnf _)⟩
  · rw [h.stk] at hf; simp at hf
  · intro t _ hst hp
    exfalso
    apply hst
    intro l hl hc
    exact hnf _ (hp l hl hc)
  · intro t ht hst
    rw [hop, Classical.not_not]
    exact (hds _).2 ⟨⟨t, ht, rfl⟩, hst⟩
  · intro t
    by_cases ht : t ∈ ds
    · have := (h.st t).1 ht; exact ⟨fun _ => this.2, fun hc => by (rw [this.1] at hc; cases hc), fun hc => absurd this.1 hc⟩
    · have := (h.st t).2 ht; exact ⟨fun hc => by (rw [this.1] at hc; cases hc), fun hc => by (rw [this.1] at hc; cases hc), fun _ _ => this.2⟩
  · intro hall hne
    obtain ⟨t, ht⟩ := List.exists_mem_of_ne_nil _ hne
    exact absurd (hall t ht) (hnf _)
  · intro t hc _
    rw [hop, Classical.not_not] at hc
    exact Or.inl ((hds _).1 hc).2
  · intro t hc
    by_cases ht : t ∈ ds
    · rw [((h.st t).1 ht).1] at hc; cases hc
    · rw [((h.st t).2 ht).1] at hc; cases hc
  · intro t hc
    by_cases ht : t ∈ ds
    · exact ((hds _).1 ht).1
    · exact absurd ((h.st t).2 ht).1 hc

theorem Started.le {I : Inst} {cnt : Nat → Nat} {G : GS} {ds : List TaskId} (h : Started I cnt G ds) (o : Nat) : cnt o ≤ 1 := by
  by_cases hc : cnt o = 0
  · omega
  · obtain ⟨t, ht⟩ := h.cnt2 o hc
    rw [h.cnt1 t o ht]
    by_cases hd : t ∈ ds
    · rw [((h.st t).1 hd).2]; exact Nat.le_refl _
    · rw [((h.st t).2 hd).2]; exact Nat.zero_le _

/-- An instance that is started satisfies the invariant; no task is settled. -/
theorem IS.startInstance_as (hset : ∀ e i o, env.settingsOk e i o = true) {i : Nat} {e : Eng} {I : Inst} (ins : AMap String Val)
    {single : TaskId → Prop} {F : TaskStatus → LinkDef → LinkStatus → Prop} {W : TaskId → Nat → Prop} (wf : WellFormed I.defn.main)
    (hI : e.insts[i]? = some I) (hq : ∀ o, cntOf e i o = 0)
    (h0 : I.objs = [] ∧ I.tasks = [] ∧ I.links = [] ∧ I.trace = []) :
    ∃ I' G, (Eng.startInstance env e i ins).insts[i]? = some I' ∧ I'.defn = I.defn ∧
      IS I.defn.main single F W I' (cntOf (Eng.startInstance env e i ins) i) G ∧ G.stk = [] ∧
      (∀ o, cntOf (Eng.startInstance env e i ins) i o ≤ 1) ∧ ∀ t, G.st t = .ready ∨ G.st t = .notStarted := by
  obtain ⟨ho, ht, hl, htr⟩ := h0
  unfold Eng.startInstance
  rw [hI]
  dsimp only
  have hen : Inst.startEntries I.defn false = ((I.defn.main.tasks.filter (fun t => (I.defn.fromLinks ⟨false, t.id⟩).length = 0)).map (·.id)).map
      (fun t => ⟨⟨false, t⟩, 0⟩) := by
    unfold Inst.startEntries
    rw [List.map_map]; rfl
  rw [hen]
  generalize hI1 : ({ I with attrs := e.startAttrs env I (e.parentOf I) ins } : Inst).setFlowStatus .active = I1
  have hd1 : I1.defn = I.defn := by rw [← hI1]; rfl
  have hmem : ∀ t, t ∈ (I.defn.main.tasks.filter (fun t => (I.defn.fromLinks ⟨false, t.id⟩).length = 0)).map (·.id) ↔
      (∃ td ∈ I.defn.main.tasks, td.id = t) ∧ IsStart I.defn.main t := by
    intro t
    have hst : ∀ td : TaskDef, (I.defn.fromLinks ⟨false, td.id⟩).length = 0 ↔ IsStart I.defn.main td.id := by
      intro td
      rw [List.length_eq_zero_iff]
      unfold Def.fromLinks Def.graph Graph.fromLinks IsStart
      dsimp only
      rw [List.filter_eq_nil_iff]
      simp
    rw [List.mem_map]
    constructor
    · rintro ⟨td, h1, rfl⟩
      obtain ⟨h1, h2⟩ := List.mem_filter.1 h1
      exact ⟨⟨td, h1, rfl⟩, (hst td).1 (by simpa using h2)⟩
    · rintro ⟨⟨td, h1, rfl⟩, h2⟩
      exact ⟨td, List.mem_filter.2 ⟨h1, by simpa using (hst td).2 h2⟩, rfl⟩
  have hS : Started I1 (cntOf (e.modI i (fun _ => I1)) i)
      ⟨fun _ => none, fun _ => .notStarted, fun _ => false, fun _ => .unset, fun _ => .unset, [], fun _ => 0, fun _ => 0, False⟩ [] := by
    subst hI1
    refine ⟨⟨fun _ _ hc => (nomatch hc), ?_, ?_, ?_, ?_, ?_, ?_, ?_⟩, ?_, fun _ => rfl, fun _ => rfl, fun _ => rfl, rfl, fun _ => rfl, id,
      fun _ => by simp, fun _ _ _ hc => (nomatch hc), fun _ _ hc => (nomatch hc), fun o hc => absurd (hq o) hc, ?_⟩
    · intro o ob hc
      simp [Inst.setFlowStatus, ho] at hc
    · intro t; simp [Inst.setFlowStatus, ht]
    · intro k; simp [Inst.setFlowStatus, Inst.linkSt, hl]
    · intro k s
      simp [Inst.setFlowStatus, htr]
    · intro t
      simp [Inst.setFlowStatus, htr, Open, TaskStatus.code]
    · intro t
      simp [Inst.setFlowStatus, htr, isEvalOf]
    · simp [Inst.setFlowStatus]
    · intro t; simp
    · simp [Inst.setFlowStatus, ht, AMap.keys]
  obtain ⟨I', G', ds', a1, a2, a3, a4⟩ := hS.enter hset ((I.defn.main.tasks.filter (fun t => (I.defn.fromLinks ⟨false, t.id⟩).length = 0)).map (·.id)) (modI_self hI (fun _ => I1)) ((List.Sublist.map _ List.filter_sublist).nodup wf.tasks)
    (fun _ _ hc => (nomatch hc)) (fun t ht => by
      obtain ⟨td, htd, rfl⟩ := List.mem_map.1 ht
      have := (List.mem_filter.1 htd).2
      rw [hd1]
      exact List.length_eq_zero_iff.1 (by simpa using this))
  refine ⟨I', G', a1, a2.trans hd1, a3.inv (by rw [a2, hd1]) (fun t => ?_), a3.stk, a3.le, fun t => ?_⟩
  · rw [a4, ← hmem]; simp
  · by_cases h : t ∈ ds'
    · exact Or.inl ((a3.st t).1 h).1
    · exact Or.inr ((a3.st t).2 h).1

/-- An instance that is started satisfies the invariant. -/
theorem IS.startInstance (hset : ∀ e i o, env.settingsOk e i o = true) {i : Nat} {e : Eng} {I : Inst} (ins : AMap String Val)
    {single : TaskId → Prop} {F : TaskStatus → LinkDef → LinkStatus → Prop} {W : TaskId → Nat → Prop} (wf : WellFormed I.defn.main)
    (hI : e.insts[i]? = some I) (hq : ∀ o, cntOf e i o = 0)
    (h0 : I.objs = [] ∧ I.tasks = [] ∧ I.links = [] ∧ I.trace = []) :
    ∃ I' G, (Eng.startInstance env e i ins).insts[i]? = some I' ∧ I'.defn = I.defn ∧
      IS I.defn.main single F W I' (cntOf (Eng.startInstance env e i ins) i) G ∧ G.stk = [] ∧
      ∀ o, cntOf (Eng.startInstance env e i ins) i o ≤ 1 := by
  obtain ⟨I', G, h1, h2, h3, h4, h5, _⟩ := IS.startInstance_as hset ins (single := single) (F := F) (W := W) wf hI hq h0
  exact ⟨I', G, h1, h2, h3, h4, h5⟩

end Flow.GraphM
