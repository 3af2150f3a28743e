import Verif.Proofs.GraphRows

/-
Operations on a flow instance preserve the invariant of `Verif.Proofs.Graph`.
-/

namespace Flow.GraphM
open Spec

theorem SimI.ctl {I : Inst} {G : GS} (h : SimI I G) (stk : List (TaskId × List TaskEntry)) (pend : TaskId → Nat) :
    SimI I { G with stk := stk, pend := pend } :=
  ⟨h.obj, h.objI, h.tab, h.lk, h.dec, h.ready, h.ex, h.compl⟩

theorem findLinks_tasks (J : Inst) (ls : List LinkDef) : (J.findLinks ls).tasks = J.tasks := by
  unfold Inst.findLinks
  induction ls generalizing J with
  | nil => rfl
  | cons x xs ih => rw [List.foldl_cons, ih]; unfold Inst.findLink; split <;> rfl

theorem setTaskStatus_tasks (J : Inst) (o : Nat) (s : TaskStatus) : (J.setTaskStatus o s).tasks = J.tasks := by
  unfold Inst.setTaskStatus; split <;> rfl

theorem applyRows_tasks (J : Inst) (rows : List (LinkDef × LinkStatus × Nat)) : (J.applyRows rows).tasks = J.tasks := by
  unfold Inst.applyRows
  induction rows generalizing J with
  | nil => rfl
  | cons x xs ih => rw [List.foldl_cons, ih]; rfl

theorem findOrCreate_nodup (J : Inst) (t : TaskRef) (h : J.tasks.keys.Nodup) : (J.findOrCreateTask t).1.tasks.keys.Nodup := by
  unfold Inst.findOrCreateTask; split
  · exact h
  · exact AMap.nodup_keys_set h _ _

/-- Entering a task that is not decided yet. -/
theorem SimI.enter {I : Inst} {G : GS} (h : SimI I G) {t : TaskId} (hr : G.rel t = false) (hn : G.obj t = none → G.st t = .notStarted)
    (hop : Open (G.st t)) :
    ∃ (obj : TaskId → Option Nat) (o : Nat) (I2 : Inst), (I.enterTask ⟨false, t⟩).2.1 = o ∧
      SimI I2 { G with obj := obj, st := upd G.st t .entered } ∧ obj t = some o ∧ (∀ u, u ≠ t → obj u = G.obj u) ∧
      (∀ p, G.obj t = some p → p = o) ∧ (G.obj t = none → o = I.objs.length) ∧ (I.tasks.keys.Nodup → I2.tasks.keys.Nodup) ∧ I2.defn = I.defn ∧
      (let d := enterDecision ((I.defn.fromLinks ⟨false, t⟩).map (fun l => G.lk l.id))
       (I.enterTask ⟨false, t⟩).2.2 = d ∧ (d = .notReady → (I.enterTask ⟨false, t⟩).1 = I2) ∧
       (d = .eval → (I.enterTask ⟨false, t⟩).1 = I2.setTaskStatus o .ready) ∧
       (d = .skip → (I.enterTask ⟨false, t⟩).1 = I2.setTaskStatus o .skipped)) := by
  obtain ⟨obj, h1, h2, h3, h4, h5⟩ := h.findOrCreate hr hn
  have hd : (I.findOrCreateTask ⟨false, t⟩).1.defn = I.defn := (Ext.findOrCreateTask _).defn
  have h6 := (h1.setStatus (s := .entered) h2 (by
    have : Open (G.st t) := hop
    simp [this]; simp [Open, TaskStatus.code])).findLinks (I.defn.fromLinks ⟨false, t⟩)
  obtain ⟨ob, h7, h8, _⟩ := h1.obj t _ h2
  refine ⟨obj, (I.findOrCreateTask ⟨false, t⟩).2, _, ?_, h6, h2, h3, fun p hp => ?_, h5, fun hn => ?_, ?_, ?_⟩
  · unfold Inst.enterTask; dsimp only; rw [h7]; dsimp only; split <;> rfl
  · have := h4 p hp; rw [h2] at this; cases this; rfl
  · rw [findLinks_tasks, setTaskStatus_tasks]; exact findOrCreate_nodup _ _ hn
  · rw [(Ext.findLinks _).defn]; unfold Inst.setTaskStatus; rw [h7]; exact hd
  · dsimp only
    have hls : ∀ l, (((I.findOrCreateTask ⟨false, t⟩).1.setTaskStatus (I.findOrCreateTask ⟨false, t⟩).2 .entered).findLinks
        (I.defn.fromLinks ⟨false, t⟩)).linkSt l = G.lk l := fun l => h6.lk l
    unfold Inst.enterTask
    dsimp only
    rw [h7]
    dsimp only
    rw [h8, hd]
    simp only [hls]
    cases enterDecision ((I.defn.fromLinks ⟨false, t⟩).map (fun l => G.lk l.id)) <;> simp

/-- The invariant of a flow instance: abstract state, correspondence, and the number `cnt o` of work items of each task
object. -/
structure IS (g : Graph) (single : TaskId → Prop) (F : TaskStatus → LinkDef → LinkStatus → Prop) (W : TaskId → Nat → Prop) (I : Inst) (cnt : Nat → Nat) (G : GS) : Prop where
  defn : I.defn.main = g
  inv : GInv g single F W G
  sim : SimI I G
  cnt1 : ∀ t o, G.obj t = some o → cnt o = G.pend t
  cnt2 : ∀ o, cnt o ≠ 0 → ∃ t, G.obj t = some o
  nodup : I.tasks.keys.Nodup

variable {g : Graph} {single : TaskId → Prop} {F : TaskStatus → LinkDef → LinkStatus → Prop} {W : TaskId → Nat → Prop} {I : Inst} {cnt : Nat → Nat} {G : GS}

namespace IS

/-- The work items after the task object of `t` was found or created. -/
theorem cnt_obj (h : IS g single F W I cnt G) {t : TaskId} {obj : TaskId → Option Nat} {o : Nat} (h1 : obj t = some o)
    (h2 : ∀ u, u ≠ t → obj u = G.obj u) (h3 : ∀ p, G.obj t = some p → p = o) (h4 : G.obj t = none → o = I.objs.length) :
    (∀ u p, obj u = some p → cnt p = G.pend u) ∧ (∀ p, cnt p ≠ 0 → ∃ u, obj u = some p) ∧
      (∀ u v p, obj u = some p → obj v = some p → u = v) ∧ (∀ s : TaskStatus, s ≠ .notStarted → ∀ u, obj u = none ↔ upd G.st t s u = .notStarted) := by
  have hfresh : G.obj t = none → ∀ u p, G.obj u = some p → p ≠ o := by
    intro hn u p hu hc
    have := h.sim.lt hu
    have := h4 hn
    omega
  refine ⟨?_, ?_, ?_, ?_⟩
  · intro u p hu
    by_cases hut : u = t
    · subst hut
      rw [h1] at hu; cases hu
      cases hg : G.obj u with
      | some p => rw [h3 p hg] at hg; exact h.cnt1 u o hg
      | none =>
        have hs := (h.inv.objs u).1 hg
        rw [(h.inv.pend u).none (by rw [hs]; simp [Open, TaskStatus.code])]
        apply Decidable.byContradiction
        intro hc
        obtain ⟨v, hv⟩ := h.cnt2 o hc
        exact hfresh hg v o hv rfl
    · rw [h2 u hut] at hu; exact h.cnt1 u p hu
  · intro p hp
    obtain ⟨u, hu⟩ := h.cnt2 p hp
    by_cases hut : u = t
    · subst hut; exact ⟨u, by rw [h3 p hu]; exact h1⟩
    · exact ⟨u, by rw [h2 u hut]; exact hu⟩
  · have key : ∀ v, v ≠ t → ∀ p, obj t = some p → obj v = some p → False := by
      intro v hv p hu hv2
      rw [h1] at hu; cases hu
      rw [h2 v hv] at hv2
      cases hg : G.obj t with
      | some p => rw [h3 p hg] at hg; exact hv (h.inv.objD _ _ _ hv2 hg)
      | none => exact hfresh hg v o hv2 rfl
    intro u v p hu hv
    by_cases hut : u = t
    · subst hut
      exact Decidable.byContradiction fun hc => key v (Ne.symm hc) p hu hv
    · by_cases hvt : v = t
      · subst hvt; exact absurd (key u hut p hv hu) id
      · rw [h2 u hut] at hu; rw [h2 v hvt] at hv
        exact h.inv.objD _ _ _ hu hv
  · intro s hs u
    by_cases hut : u = t
    · subst hut; rw [upd_self, h1]; exact ⟨(fun hc => nomatch hc), fun hc => absurd hc hs⟩
    · rw [upd_ne _ _ hut, h2 u hut]; exact h.inv.objs u

theorem mem_from (h : IS g single F W I cnt G) {t : TaskId} {l : LinkDef} : l ∈ I.defn.fromLinks ⟨false, t⟩ ↔ l ∈ g.links ∧ l.dst = t := by
  unfold Def.fromLinks Def.graph Graph.fromLinks
  rw [h.defn]; simp

theorem toLinks (h : IS g single F W I cnt G) (t : TaskId) : I.defn.toLinks ⟨false, t⟩ = g.toLinks t := by
  unfold Def.toLinks Def.graph
  rw [h.defn]

variable {u : TaskId} {x : TaskEntry} {es : List TaskEntry} {rest : List (TaskId × List TaskEntry)}

theorem xref (h : IS g single F W I cnt G) (hs : G.stk = (u, x :: es) :: rest) : x.task = ⟨false, x.task.id⟩ := by
  have hm : (u, x :: es) ∈ G.stk := by rw [hs]; simp
  have := ((h.inv.frames _ hm).link x (by simp)).1
  cases hx : x.task with
  | mk a b => rw [hx] at this; dsimp only at this; rw [this]

theorem xtask (h : IS g single F W I cnt G) (wf : WellFormed g) (hs : G.stk = (u, x :: es) :: rest) : ∃ td ∈ g.tasks, td.id = x.task.id := by
  have hm : (u, x :: es) ∈ G.stk := by rw [hs]; simp
  obtain ⟨_, l, hl, _, h2, _⟩ := (h.inv.frames _ hm).link x (by simp)
  obtain ⟨td, h3, h4⟩ := wf.dst l hl
  exact ⟨td, h3, h4.trans h2⟩

/-- Entering a task that has to wait. -/
theorem enterWait (h : IS g single F W I cnt G) (wf : WellFormed g) (hs : G.stk = (u, x :: es) :: rest)
    (hr : (I.enterTask x.task).2.2 = .notReady) :
    ∃ G', IS g single F W (I.enterTask x.task).1 cnt G' ∧ G'.stk = (u, es) :: rest ∧ G'.st = upd G.st x.task.id .entered := by
  have hx := h.xref hs
  obtain ⟨hop, _, _, hrel, l0, hl0, _, hl2, _⟩ := h.inv.entry hs
  obtain ⟨obj, o, I2, e1, e2, e3, e4, e5, e6, e7, e7', e8⟩ := h.sim.enter hrel (fun hn => (h.inv.objs _).1 hn) hop
  rw [← hx] at e1 e8
  obtain ⟨c1, c2, c3, c4⟩ := h.cnt_obj e3 e4 e5 e6
  obtain ⟨d1, d2, _, _⟩ := e8
  have hd := d1.symm.trans hr
  rw [d2 hd]
  refine ⟨{ G with obj := obj, st := upd G.st x.task.id .entered, stk := (u, es) :: rest }, ⟨?_, ?_, e2.ctl _ _, c1, c2, e7 h.nodup⟩, rfl, rfl⟩
  · rw [e7']; exact h.defn
  · refine h.inv.enterWait hs ?_ (c4 _ (fun hc => nomatch hc)) c3 ?_
    · rw [enterDecision_notReady] at hd
      obtain ⟨l, hl, h1⟩ := List.mem_map.1 hd
      rw [hx] at hl
      exact ⟨l, (h.mem_from.1 hl).1, (h.mem_from.1 hl).2, h1⟩
    · obtain ⟨td, htd, h1⟩ := wf.dst l0 hl0
      exact ⟨td, htd, h1.trans hl2⟩

/-- Entering a task that is to be executed. -/
theorem enterEval (h : IS g single F W I cnt G) (wf : WellFormed g) (hs : G.stk = (u, x :: es) :: rest)
    (hr : (I.enterTask x.task).2.2 = .eval) :
    ∃ G', IS g single F W (I.enterTask x.task).1 (upd cnt (I.enterTask x.task).2.1 (cnt (I.enterTask x.task).2.1 + 1)) G' ∧
      G'.stk = (u, es) :: rest ∧ G'.st = upd G.st x.task.id .ready ∧ cnt (I.enterTask x.task).2.1 = 0 := by
  have hx := h.xref hs
  obtain ⟨hop, _, _, hrel, l0, hl0, _, hl2, _⟩ := h.inv.entry hs
  obtain ⟨obj, o, I2, e1, e2, e3, e4, e5, e6, e7, e7', e8⟩ := h.sim.enter hrel (fun hn => (h.inv.objs _).1 hn) hop
  rw [← hx] at e1 e8
  obtain ⟨c1, c2, c3, c4⟩ := h.cnt_obj e3 e4 e5 e6
  obtain ⟨d1, _, d2, _⟩ := e8
  have hd := d1.symm.trans hr
  rw [d2 hd, e1]
  have e9 := e2.setStatus (s := .ready) e3 (by simp [Open, TaskStatus.code])
  have hupd : upd (upd G.st x.task.id .entered) x.task.id .ready = upd G.st x.task.id .ready := by
    funext t; unfold upd; split <;> rfl
  dsimp only at e9
  rw [hupd] at e9
  have hp0 : G.pend x.task.id = 0 := (h.inv.pend _).none hop
  have hc0 : cnt o = 0 := (c1 _ _ e3).trans hp0
  refine ⟨{ G with obj := obj, st := upd G.st x.task.id .ready, stk := (u, es) :: rest, pend := upd G.pend x.task.id 1 },
    ⟨?_, ?_, e9.ctl _ _, ?_, ?_, ?_⟩, rfl, rfl, hc0⟩
  · have : (I2.setTaskStatus o .ready).defn = I2.defn := by unfold Inst.setTaskStatus; split <;> rfl
    rw [this, e7']; exact h.defn
  · rw [enterDecision_eval] at hd
    refine h.inv.enterEval hs ?_ ?_ (c4 _ (fun hc => nomatch hc)) c3 ?_
    · intro l hl hld hc
      have := hd.1 _ (List.mem_map.2 ⟨l, by rw [hx]; exact h.mem_from.2 ⟨hl, hld⟩, rfl⟩)
      rw [hc] at this; exact this
    · rcases hd.2 with hd2 | hd2
      · have : l0 ∈ I.defn.fromLinks x.task := by rw [hx]; exact h.mem_from.2 ⟨hl0, hl2⟩
        rw [List.map_eq_nil_iff.1 hd2] at this; simp at this
      · obtain ⟨l, hl, h1⟩ := List.mem_map.1 hd2
        rw [hx] at hl
        exact ⟨l, (h.mem_from.1 hl).1, (h.mem_from.1 hl).2, h1⟩
    · obtain ⟨td, htd, h1⟩ := wf.dst l0 hl0
      exact ⟨td, htd, h1.trans hl2⟩
  · intro t p htp
    dsimp only at htp ⊢
    by_cases ht : t = x.task.id
    · subst ht
      rw [e3] at htp; cases htp
      rw [upd_self, upd_self, hc0]
    · have : p ≠ o := fun hc => ht (c3 _ _ _ htp (by rw [hc]; exact e3))
      rw [upd_ne _ _ this, upd_ne _ _ ht]; exact c1 t p htp
  · intro p hp
    by_cases hpo : p = o
    · subst hpo; exact ⟨_, e3⟩
    · rw [upd_ne _ _ hpo] at hp; exact c2 p hp
  · rw [setTaskStatus_tasks]; exact e7 h.nodup

/-- Entering a task that is to be skipped. -/
theorem enterSkip (h : IS g single F W I cnt G) (wf : WellFormed g) (os : OrderSafe g) (hs : G.stk = (u, x :: es) :: rest)
    (hr : (I.enterTask x.task).2.2 = .skip) :
    ∃ (ob : Obj) (I2 : Inst) (es' : List TaskEntry) (G' : GS), (I.enterTask x.task).1.objs[(I.enterTask x.task).2.1]? = some ob ∧
      ob.task = x.task ∧ (I.enterTask x.task).1.defn = I.defn ∧ (I.enterTask x.task).1.skipTask (I.enterTask x.task).2.1 x.task = (I2, es') ∧
      G'.stk = (x.task.id, es') :: (u, es) :: rest ∧
      IS g single F W (if (decide ((I.defn.toLinks x.task).length = 0) && I2.allDone) = true then I2.setFlowStatus .completed else I2) cnt G' ∧
      ((I.defn.toLinks x.task).length = 0 → es' = []) ∧ G'.st = upd G.st x.task.id .skipped ∧ es'.length = (g.toLinks x.task.id).length := by
  have hx := h.xref hs
  obtain ⟨hop, _, _, hrel, l0, hl0, _, hl2, _⟩ := h.inv.entry hs
  obtain ⟨obj, o, I2, e1, e2, e3, e4, e5, e6, e7, e7', e8⟩ := h.sim.enter hrel (fun hn => (h.inv.objs _).1 hn) hop
  rw [← hx] at e1 e8
  obtain ⟨c1, c2, c3, c4⟩ := h.cnt_obj e3 e4 e5 e6
  obtain ⟨d1, _, _, d2⟩ := e8
  have hd := d1.symm.trans hr
  rw [d2 hd, e1]
  have e9 := e2.setStatus (s := .skipped) e3 (by dsimp only; rw [upd_self]; simp [Open, TaskStatus.code])
  have hupd : ∀ a b : TaskStatus, upd (upd G.st x.task.id a) x.task.id b = upd G.st x.task.id b := by
    intro a b; funext t; unfold upd; split <;> rfl
  dsimp only at e9
  rw [hupd] at e9
  have hdefn : (I2.setTaskStatus o .skipped).defn = I.defn := by
    rw [← e7']; unfold Inst.setTaskStatus; split <;> rfl
  obtain ⟨ob, h1, h2, _⟩ := e9.obj x.task.id o e3
  have hto : I.defn.toLinks x.task = g.toLinks x.task.id := by rw [hx]; exact h.toLinks _
  have hrows := skipRows_ok (g.toLinks x.task.id)
  have hnd := hrows.nodup wf
  -- the state of the links
  rw [enterDecision_skip] at hd
  have hlk : ∀ l ∈ g.links, l.dst = x.task.id → G.lk l.id ≠ .unset ∧ G.lk l.id ≠ .true := by
    intro l hl hld
    have hm : G.lk l.id ∈ (I.defn.fromLinks x.task).map (fun l => G.lk l.id) :=
      List.mem_map.2 ⟨l, by rw [hx]; exact h.mem_from.2 ⟨hl, hld⟩, rfl⟩
    refine ⟨fun hc => ?_, fun hc => ?_⟩
    · have := hd.2.1 _ hm; rw [hc] at this; exact this
    · rw [hc] at hm; exact hd.2.2 hm
  have hopen : ∀ r ∈ skipRows (g.toLinks x.task.id), G.dec r.1.id = .unset := by
    intro r hr
    apply Decidable.byContradiction
    intro hc
    have h3 := (h.inv.lkset r.1 (hrows.mem hr).1).1 hc
    rw [(hrows.mem hr).2] at h3
    exact hop.not_fin h3
  -- the instance afterwards
  have e10 := (e9.findLinks (g.toLinks x.task.id)).setStatus (t := x.task.id) (o := o) (s := .skipped) e3
    (by dsimp only; rw [upd_self]; simp)
  dsimp only at e10
  rw [hupd] at e10
  have e11 := e10.applyRows (skipRows (g.toLinks x.task.id)) hnd (fun r hr => ⟨(hrows.row r hr).1, hopen r hr⟩)
  dsimp only at e11
  have hsk : (I2.setTaskStatus o .skipped).skipTask o x.task =
      ((((I2.setTaskStatus o .skipped).findLinks (g.toLinks x.task.id)).setTaskStatus o .skipped).applyRows (skipRows (g.toLinks x.task.id)),
        rowEntries false (skipRows (g.toLinks x.task.id))) := by
    unfold Inst.skipTask
    dsimp only
    rw [hdefn, hto, hx]
  have hnodup : ((((I2.setTaskStatus o .skipped).findLinks (g.toLinks x.task.id)).setTaskStatus o .skipped).applyRows
      (skipRows (g.toLinks x.task.id))).tasks.keys.Nodup := by
    rw [applyRows_tasks, setTaskStatus_tasks, findLinks_tasks, setTaskStatus_tasks]; exact e7 h.nodup
  have hdefn2 : ((((I2.setTaskStatus o .skipped).findLinks (g.toLinks x.task.id)).setTaskStatus o .skipped).applyRows
      (skipRows (g.toLinks x.task.id))).defn = I.defn := by
    rw [← hdefn]
    have := (Calm.skipTask (I2.setTaskStatus o .skipped) o x.task).defn
    rw [hsk] at this; exact this
  generalize hI3 : (((I2.setTaskStatus o .skipped).findLinks (g.toLinks x.task.id)).setTaskStatus o .skipped).applyRows
      (skipRows (g.toLinks x.task.id)) = I3 at e11 hsk hnodup hdefn2
  have hall := e11.allDone hnodup
  have hnot : ¬ IsStart g x.task.id := fun hc => hc l0 hl0 hl2
  have hpend : upd G.pend x.task.id 0 = G.pend := by
    funext t
    unfold upd
    split
    · rename_i ht; subst ht
      exact ((h.inv.pend _).none hop).symm
    · rfl
  have hex : upd G.ex x.task.id (G.ex x.task.id) = G.ex := by
    funext t; unfold upd; split
    · rename_i ht; rw [ht]
    · rfl
  have hdd : ∀ l ∈ g.links, l.src = x.task.id → SimI.decRows G.dec (skipRows (g.toLinks x.task.id)) l.id ≠ .true := by
    intro l hl hls
    obtain ⟨r, hr, rfl⟩ := hrows.of_link hl hls
    rw [SimI.decRows_mem hnd hr]
    obtain ⟨l', _, rfl⟩ := List.mem_map.1 hr
    exact fun hc => nomatch hc
  have hempty : (I.defn.toLinks x.task).length = 0 → rowEntries false (skipRows (g.toLinks x.task.id)) = [] := by
    intro h0
    rw [hto, List.length_eq_zero_iff] at h0
    rw [h0]; rfl
  have hlen : (I.defn.toLinks x.task).length = 0 ↔ ∀ l ∈ g.links, l.src ≠ x.task.id := by
    rw [hto, List.length_eq_zero_iff]
    unfold Graph.toLinks
    rw [List.filter_eq_nil_iff]
    constructor
    · intro h3 l hl hc; exact h3 l hl (by simp [hc])
    · intro h3 l hl hc; exact h3 l hl (by simpa using hc)
  have hcond : (decide ((I.defn.toLinks x.task).length = 0) && I3.allDone) = true ↔
      ((∀ l ∈ g.links, l.src ≠ x.task.id) ∧ ∀ t, upd G.st x.task.id .skipped t ≠ .notStarted → G.rel t = false → Fin (upd G.st x.task.id .skipped t)) := by
    rw [Bool.and_eq_true, decide_eq_true_eq, hlen, hall]
    refine and_congr Iff.rfl ⟨fun h3 t ht => h3 t fun hc => ht ((c4 .skipped (fun hc => nomatch hc) t).1 hc),
      fun h3 t ht => h3 t fun hc => ht ((c4 .skipped (fun hc => nomatch hc) t).2 hc)⟩
  have hG : ∀ compl : Prop, (compl ↔ G.compl ∨ ((∀ l ∈ g.links, l.src ≠ x.task.id) ∧
      ∀ t, upd G.st x.task.id .skipped t ≠ .notStarted → G.rel t = false → Fin (upd G.st x.task.id .skipped t))) →
      GInv g single F W ⟨obj, upd G.st x.task.id .skipped, G.rel, SimI.decRows G.lk (skipRows (g.toLinks x.task.id)),
        SimI.decRows G.dec (skipRows (g.toLinks x.task.id)), (x.task.id, rowEntries false (skipRows (g.toLinks x.task.id))) :: (u, es) :: rest,
        G.pend, G.ex, compl⟩ := by
    intro compl hc
    have := h.inv.enterSkip wf os hs hlk (skipRows_finish wf os hnot G .skipped) hdd (c4 _ (fun hc => nomatch hc)) c3 hc
    rw [hpend, hex] at this
    exact this
  refine ⟨ob, I3, rowEntries false (skipRows (g.toLinks x.task.id)), ?_⟩
  by_cases hcc : (decide ((I.defn.toLinks x.task).length = 0) && I3.allDone) = true
  · refine ⟨⟨obj, upd G.st x.task.id .skipped, G.rel, SimI.decRows G.lk (skipRows (g.toLinks x.task.id)),
        SimI.decRows G.dec (skipRows (g.toLinks x.task.id)), (x.task.id, rowEntries false (skipRows (g.toLinks x.task.id))) :: (u, es) :: rest,
        G.pend, G.ex, True⟩, h1, h2.trans hx.symm, hdefn, hsk, rfl, ?_, hempty, rfl, by simp [rowEntries, skipRows]⟩
    rw [if_pos hcc]
    exact ⟨by show I3.defn.main = g; rw [hdefn2]; exact h.defn, hG True ⟨fun _ => Or.inr (hcond.1 hcc), fun _ => trivial⟩,
      e11.setCompleted.ctl _ _, c1, c2, hnodup⟩
  · refine ⟨⟨obj, upd G.st x.task.id .skipped, G.rel, SimI.decRows G.lk (skipRows (g.toLinks x.task.id)),
        SimI.decRows G.dec (skipRows (g.toLinks x.task.id)), (x.task.id, rowEntries false (skipRows (g.toLinks x.task.id))) :: (u, es) :: rest,
        G.pend, G.ex, G.compl⟩, h1, h2.trans hx.symm, hdefn, hsk, rfl, ?_, hempty, rfl, by simp [rowEntries, skipRows]⟩
    rw [if_neg hcc]
    exact ⟨by rw [hdefn2]; exact h.defn, hG G.compl ⟨Or.inl, fun hx => hx.elim id fun hy => absurd (hcond.2 hy) hcc⟩,
      e11.ctl _ _, c1, c2, hnodup⟩

/-- Releasing a task. -/
theorem release (h : IS g single F W I cnt G) (wf : WellFormed g) (hs : G.stk = (u, []) :: rest) :
    ∃ G', IS g single F W (I.release ⟨false, u⟩) cnt G' ∧ G'.stk = rest ∧ G'.st = G.st := by
  refine ⟨{ G with
      rel := upd G.rel u true
      lk := fun k => if ∃ l ∈ I.defn.fromLinks ⟨false, u⟩, l.id = k then .unset else G.lk k
      stk := rest }, ⟨?_, ?_, (h.sim.release u).ctl _ _, h.cnt1, h.cnt2, ?_⟩, rfl, rfl⟩
  · rw [(Calm.release I ⟨false, u⟩).defn]; exact h.defn
  · refine h.inv.release hs (fun k => ?_) (fun l hl hlu => ?_)
    · split
      · exact Or.inl rfl
      · exact Or.inr rfl
    · rw [if_neg]
      rintro ⟨m, hm, hid⟩
      obtain ⟨h1, h2⟩ := h.mem_from.1 hm
      exact hlu (by rw [← links_inj wf h1 hl hid]; exact h2)
  · have : (I.release ⟨false, u⟩).tasks = I.tasks.del u := by
      unfold Inst.release
      generalize I.defn.fromLinks ⟨false, u⟩ = ls
      have key : ∀ (ls : List LinkDef) (J : Inst),
          (ls.foldl (fun J l => { J with links := J.links.del l.id, trace := .linkRemoved l.id :: J.trace }) J).tasks = J.tasks := by
        intro ls
        induction ls with
        | nil => intro J; rfl
        | cons x xs ih => intro J; rw [List.foldl_cons, ih]
      rw [key]
    rw [this]; exact AMap.nodup_keys_del h.nodup _

/-! ### A task was evaluated -/

variable {o n : Nat} {I1 : Inst} {s0 : TaskStatus}

/-- More may be known about the load of tasks that wait. -/
theorem mono {W' : TaskId → Nat → Prop} (h : IS g single F W I cnt G) (hW : ∀ t n, W t n → W' t n) : IS g single F W' I cnt G := by
  refine ⟨h.defn, ?_, h.sim, h.cnt1, h.cnt2, h.nodup⟩
  have hi := h.inv
  exact ⟨hi.ownFin, hi.ownD, hi.relFin, hi.frames, hi.tgt, hi.preds, hi.lkdec, hi.lkset, hi.lkrel, hi.up, hi.low, hi.prog, hi.fresh, hi.start,
    fun t => ⟨(hi.pend t).1, fun hw => hW t _ ((hi.pend t).2.1 hw), (hi.pend t).2.2⟩,
    hi.comp1, hi.comp2, hi.execd, hi.skipd, hi.decsrc, hi.dom, hi.outs, hi.objs, hi.objD, hi.ex⟩

theorem cnt_upd (h : IS g single F W I cnt G) (ho : G.obj u = some o) (k : Nat) :
    (∀ t p, G.obj t = some p → upd cnt o k p = upd G.pend u k t) ∧ ∀ p, upd cnt o k p ≠ 0 → ∃ t, G.obj t = some p := by
  constructor
  · intro t p hp
    by_cases ht : t = u
    · subst ht; rw [ho] at hp; cases hp; rw [upd_self, upd_self]
    · have : p ≠ o := fun hc => ht (h.inv.objD _ _ _ hp (by rw [hc]; exact ho))
      rw [upd_ne _ _ this, upd_ne _ _ ht]; exact h.cnt1 t p hp
  · intro p hp
    by_cases hpo : p = o
    · subst hpo; exact ⟨u, ho⟩
    · rw [upd_ne _ _ hpo] at hp; exact h.cnt2 p hp

/-- The task waits. -/
theorem wait (h : IS g single F W I cnt G) (ho : G.obj u = some o) (hu : Live (G.st u))
    (hsim : SimI I1 { G with st := upd G.st u s0, ex := upd G.ex u n }) (h0 : ¬ Open s0 ∧ s0 ≠ .skipped) (hd : I1.defn = I.defn)
    (ht : I1.tasks = I.tasks) (hn : single u → n ≤ 1) {k : Nat} (hk : W u k) :
    ∃ G', IS g single F W (I1.setTaskStatus o .waiting) (upd cnt o k) G' ∧ G'.stk = G.stk ∧ G'.st = upd G.st u .waiting := by
  obtain ⟨c1, c2⟩ := h.cnt_upd ho k
  have e1 := hsim.setStatus (s := .waiting) ho (by dsimp only; rw [upd_self]; simp [h0]; simp [Open, TaskStatus.code])
  have hupd : upd (upd G.st u s0) u .waiting = upd G.st u .waiting := by
    funext t; unfold upd; split <;> rfl
  dsimp only at e1
  rw [hupd] at e1
  refine ⟨{ G with st := upd G.st u .waiting, pend := upd G.pend u k, ex := upd G.ex u n }, ⟨?_, h.inv.toWait hu hn hk, e1.ctl _ _, c1, c2, ?_⟩, rfl, rfl⟩
  · have : (I1.setTaskStatus o .waiting).defn = I1.defn := by unfold Inst.setTaskStatus; split <;> rfl
    rw [this, hd]; exact h.defn
  · rw [setTaskStatus_tasks, ht]; exact h.nodup

/-- The task is executed again. -/
theorem again (h : IS g single F W I cnt G)
    (hsim : SimI I1 { G with ex := upd G.ex u n }) (hd : I1.defn = I.defn) (ht : I1.tasks = I.tasks) (hn : ¬ single u) :
    ∃ G', IS g single F W I1 cnt G' ∧ G'.stk = G.stk ∧ G'.st = G.st :=
  ⟨{ G with ex := upd G.ex u n }, ⟨by rw [hd]; exact h.defn, h.inv.again hn, hsim, h.cnt1, h.cnt2, by rw [ht]; exact h.nodup⟩, rfl, rfl⟩

/-- The task is finished with status `s` and decisions `rows`. -/
theorem finishRows (h : IS g single F W I cnt G) (wf : WellFormed g) (os : OrderSafe g) (hs : G.stk = []) (ho : G.obj u = some o)
    (hu : Live (G.st u)) {s : TaskStatus} (hfs : s = .done ∨ s = .failed) {rows : List (LinkDef × LinkStatus × Nat)} {I2 : Inst}
    (hsim : SimI I2 { G with st := upd G.st u s, ex := upd G.ex u n }) (hd : I2.defn = I.defn)
    (ht : I2.tasks = I.tasks) (hn : single u → n ≤ 1) (hrows : RowsOK (g.toLinks u) rows)
    (hf : GInv.Finish g G u s (SimI.decRows G.lk rows) (SimI.decRows G.dec rows) (sortEntries (rowEntries false rows)))
    (hF : ∀ r ∈ rows, F s r.1 r.2.1) {I3 : Inst} (hI3 : I2.applyRows rows = I3) :
    ∃ G', IS g single F W (if (decide ((g.toLinks u).length = 0) && I3.allDone) = true then I3.setFlowStatus .completed else I3) (upd cnt o 0) G' ∧
      G'.stk = [(u, sortEntries (rowEntries false rows))] ∧ ((g.toLinks u).length = 0 → sortEntries (rowEntries false rows) = []) ∧
      G'.st = upd G.st u s ∧ (sortEntries (rowEntries false rows)).length = (g.toLinks u).length := by
  obtain ⟨c1, c2⟩ := h.cnt_upd ho 0
  have hnd := hrows.nodup wf
  have hopen : ∀ r ∈ rows, G.dec r.1.id = .unset := by
    intro r hr
    apply Decidable.byContradiction
    intro hc
    have h3 := (h.inv.lkset r.1 (hrows.mem hr).1).1 hc
    rw [(hrows.mem hr).2] at h3
    exact hu.not_fin h3
  have e1 := hsim.applyRows rows hnd (fun r hr => ⟨(hrows.row r hr).1, hopen r hr⟩)
  dsimp only at e1
  have hnodup : (I2.applyRows rows).tasks.keys.Nodup := by rw [applyRows_tasks, ht]; exact h.nodup
  have hdefn : (I2.applyRows rows).defn = I.defn := by
    rw [← hd]
    unfold Inst.applyRows
    generalize I2 = J
    induction rows generalizing J with
    | nil => rfl
    | cons x xs ih =>
      rw [List.foldl_cons]
      have key : ∀ (xs : List (LinkDef × LinkStatus × Nat)) (J : Inst), (xs.foldl (fun J r => J.setLink r.1.id r.2.1) J).defn = J.defn := by
        intro xs
        induction xs with
        | nil => intro J; rfl
        | cons y ys ih => intro J; rw [List.foldl_cons, ih]; rfl
      rw [key]; rfl
  rw [hI3] at e1 hnodup hdefn
  have hall := e1.allDone hnodup
  have hs0 : s ≠ .notStarted := by rcases hfs with rfl | rfl <;> exact fun hc => nomatch hc
  have hobj : ∀ t, G.obj t = none ↔ upd G.st u s t = .notStarted := by
    intro t
    rw [h.inv.objs]
    by_cases htu : t = u
    · subst htu; rw [upd_self]; exact ⟨fun hc => absurd hc hu.ne_notStarted, fun hc => absurd hc hs0⟩
    · rw [upd_ne _ _ htu]
  have hlen : (g.toLinks u).length = 0 ↔ ∀ l ∈ g.links, l.src ≠ u := by
    rw [List.length_eq_zero_iff]
    unfold Graph.toLinks
    rw [List.filter_eq_nil_iff]
    constructor
    · intro h3 l hl hc; exact h3 l hl (by simp [hc])
    · intro h3 l hl hc; exact h3 l hl (by simpa using hc)
  have hcond : (decide ((g.toLinks u).length = 0) && I3.allDone) = true ↔
      ((∀ l ∈ g.links, l.src ≠ u) ∧ ∀ t, upd G.st u s t ≠ .notStarted → G.rel t = false → Fin (upd G.st u s t)) := by
    rw [Bool.and_eq_true, decide_eq_true_eq, hlen, hall]
    refine and_congr Iff.rfl ⟨fun h3 t ht => h3 t fun hc => ht ((hobj t).1 hc), fun h3 t ht => h3 t fun hc => ht ((hobj t).2 hc)⟩
  have hdec : ∀ l ∈ g.links, l.src = u → F s l (SimI.decRows G.dec rows l.id) := by
    intro l hl hlu
    obtain ⟨r, hr, rfl⟩ := hrows.of_link hl hlu
    rw [SimI.decRows_mem hnd hr]; exact hF r hr
  have hempty : (g.toLinks u).length = 0 → sortEntries (rowEntries false rows) = [] := by
    intro h0
    rw [List.length_eq_zero_iff] at h0
    have := hrows.links
    rw [h0, List.map_eq_nil_iff] at this
    rw [this]; rfl
  have hlength : (sortEntries (rowEntries false rows)).length = (g.toLinks u).length := by
    rw [(sortEntries_perm _).length_eq, ← hrows.links]; simp [rowEntries]
  have hG : ∀ compl : Prop, (compl ↔ G.compl ∨ ((∀ l ∈ g.links, l.src ≠ u) ∧
      ∀ t, upd G.st u s t ≠ .notStarted → G.rel t = false → Fin (upd G.st u s t))) →
      GInv g single F W ⟨G.obj, upd G.st u s, G.rel, SimI.decRows G.lk rows, SimI.decRows G.dec rows,
        [(u, sortEntries (rowEntries false rows))], upd G.pend u 0, upd G.ex u n, compl⟩ :=
    fun compl hc => h.inv.finish wf os hs hu hfs hf hdec hn hc
  by_cases hcc : (decide ((g.toLinks u).length = 0) && I3.allDone) = true
  · refine ⟨⟨G.obj, upd G.st u s, G.rel, SimI.decRows G.lk rows, SimI.decRows G.dec rows,
        [(u, sortEntries (rowEntries false rows))], upd G.pend u 0, upd G.ex u n, True⟩, ?_, rfl, hempty, rfl, hlength⟩
    rw [if_pos hcc]
    exact ⟨by show I3.defn.main = g; rw [hdefn]; exact h.defn, hG True ⟨fun _ => Or.inr (hcond.1 hcc), fun _ => trivial⟩,
      e1.setCompleted.ctl _ _, c1, c2, hnodup⟩
  · refine ⟨⟨G.obj, upd G.st u s, G.rel, SimI.decRows G.lk rows, SimI.decRows G.dec rows,
        [(u, sortEntries (rowEntries false rows))], upd G.pend u 0, upd G.ex u n, G.compl⟩, ?_, rfl, hempty, rfl, hlength⟩
    rw [if_neg hcc]
    exact ⟨by rw [hdefn]; exact h.defn, hG G.compl ⟨Or.inl, fun hx => hx.elim id fun hy => absurd (hcond.2 hy) hcc⟩,
      e1.ctl _ _, c1, c2, hnodup⟩

/-- The task is done. -/
theorem done (h : IS g single F W I cnt G) (wf : WellFormed g) (os : OrderSafe g) (hs : G.stk = []) (ho : G.obj u = some o)
    (hu : Live (G.st u)) (hsim : SimI I1 { G with st := upd G.st u s0, ex := upd G.ex u n }) (h0 : ¬ Open s0 ∧ s0 ≠ .skipped)
    (hd : I1.defn = I.defn) (ht : I1.tasks = I.tasks) (hn : single u → n ≤ 1) {prio : Bool} {ev : LinkDef → ExprOut} {I3 : Inst} {es : List TaskEntry}
    (hF : ∀ rows, doneRows prio ev (g.toLinks u) = .ok rows → ∀ r ∈ rows, F .done r.1 r.2.1)
    (hdone : I1.doneTask prio ev o ⟨false, u⟩ = (I3, .ok es)) :
    ∃ G', IS g single F W (if (decide ((g.toLinks u).length = 0) && I3.allDone) = true then I3.setFlowStatus .completed else I3) (upd cnt o 0) G' ∧
      G'.stk = [(u, es)] ∧ ((g.toLinks u).length = 0 → es = []) ∧ G'.st = upd G.st u .done ∧ es.length = (g.toLinks u).length := by
  unfold Inst.doneTask at hdone
  dsimp only at hdone
  rw [hd, h.toLinks] at hdone
  cases hr : doneRows prio ev (g.toLinks u) with
  | error p =>
    obtain ⟨m, rows⟩ := p
    rw [hr] at hdone; simp at hdone
  | ok rows =>
    rw [hr] at hdone
    dsimp only at hdone
    simp only [Prod.mk.injEq, Except.ok.injEq] at hdone
    obtain ⟨h1, rfl⟩ := hdone
    have e1 := (hsim.findLinks (g.toLinks u)).setStatus (s := .done) ho (by dsimp only; rw [upd_self]; simp [h0]; simp [Open, TaskStatus.code])
    have hupd : upd (upd G.st u s0) u .done = upd G.st u .done := by
      funext t; unfold upd; split <;> rfl
    dsimp only at e1
    rw [hupd] at e1
    exact h.finishRows wf os hs ho hu (Or.inl rfl) e1
      (by rw [← hd]; have : ∀ J : Inst, (J.setTaskStatus o .done).defn = J.defn := fun J => by (unfold Inst.setTaskStatus; split <;> rfl)
          rw [this, (Ext.findLinks _).defn])
      (by rw [setTaskStatus_tasks, findLinks_tasks, ht]) hn (doneRows_rowsOK hr).1 (doneRows_finish wf os hr G .done) (hF rows hr) h1

/-- The task failed and has an error link. -/
theorem failed (h : IS g single F W I cnt G) (wf : WellFormed g) (os : OrderSafe g) (hs : G.stk = []) (ho : G.obj u = some o)
    (hu : Live (G.st u)) (hsim : SimI I1 { G with st := upd G.st u s0, ex := upd G.ex u n }) (h0 : ¬ Open s0 ∧ s0 ≠ .skipped)
    (hd : I1.defn = I.defn) (ht : I1.tasks = I.tasks)
    (hn : single u → n ≤ 1) {I3 : Inst} {es : List TaskEntry} (hF : ∀ l : LinkDef, F .failed l (if l.type = .error then .true else .false))
    (herr : I1.errorTask o ⟨false, u⟩ = (I3, some es)) :
    ∃ G', IS g single F W I3 (upd cnt o 0) G' ∧ G'.stk = [(u, es)] ∧ G'.st = upd G.st u .failed ∧ es.length = (g.toLinks u).length := by
  unfold Inst.errorTask at herr
  dsimp only at herr
  rw [hd, h.toLinks] at herr
  cases hr : errorRows (g.toLinks u) with
  | none => rw [hr] at herr; simp at herr
  | some rows =>
    rw [hr] at herr
    dsimp only at herr
    simp only [Prod.mk.injEq, Option.some.injEq] at herr
    obtain ⟨h1, rfl⟩ := herr
    have e1 := (hsim.setStatus (s := .failed) ho (by dsimp only; rw [upd_self]; simp [h0]; simp [Open, TaskStatus.code])).findLinks (g.toLinks u)
    have hupd : upd (upd G.st u s0) u .failed = upd G.st u .failed := by
      funext t; unfold upd; split <;> rfl
    dsimp only at e1
    rw [hupd] at e1
    obtain ⟨G', h2, h3, _, h4, h5⟩ := h.finishRows wf os hs ho hu (Or.inr rfl) e1
      (by rw [← hd, (Ext.findLinks _).defn]; unfold Inst.setTaskStatus; split <;> rfl)
      (by rw [findLinks_tasks, setTaskStatus_tasks, ht]) hn (errorRows_ok hr).1 (errorRows_finish wf os hr G .failed)
      (fun r hr' => by rw [(errorRows_ok hr).2.2 r hr']; exact hF r.1) h1
    refine ⟨G', ?_, h3, h4, h5⟩
    have hne : (g.toLinks u).length ≠ 0 := by
      obtain ⟨l, hl, _⟩ := (errorRows_ok hr).2.1
      exact fun hc => by rw [List.length_eq_zero_iff.1 hc] at hl; simp at hl
    rw [if_neg (by simp [hne])] at h2
    exact h2

end IS

end Flow.GraphM
