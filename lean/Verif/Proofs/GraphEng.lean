import Verif.Proofs.GraphExec

/-
In every reachable state, every flow instance whose definition is in scope satisfies the invariant of
`Verif.Proofs.Graph`.
-/

namespace Flow.GraphM
open Spec Eng

variable {env : Env} {i : Nat} {g : Graph} {e : Eng} {I : Inst} {G : GS}

/-- What a step of `enterTasks` or `releaseTask` achieves: no settled task becomes unsettled, and the stack becomes smaller or a
task is finished; `n` is how often the end was reported before. -/
def Enters (g : Graph) (i n : Nat) (G : GS) (e e' : Eng) (G' : GS) : Prop :=
  ((∀ t, Settled (G.st t) → Settled (G'.st t)) ∧ ∀ t, Fin (G.st t) → Fin (G'.st t)) ∧ e'.cur = e.cur ∧
    (ssize e'.stack < ssize e.stack ∧ (∀ I', e'.insts[i]? = some I' → endings I' ≤ n) ∨
      ∃ td ∈ g.tasks, ¬ Settled (G.st td.id) ∧ Fin (G'.st td.id) ∧ ssize e'.stack ≤ ssize e.stack + g.links.length + 2 ∧
        ∀ I', e'.insts[i]? = some I' → endings I' ≤ n + reports g td.id .skipped)

theorem Open.not_settled {s : TaskStatus} (h : Open s) : ¬ Settled s := by unfold Open at h; unfold Settled; omega

theorem settled_upd {st : TaskId → TaskStatus} {u : TaskId} {s : TaskStatus} (h : ¬ Settled (st u) ∨ Settled s) {t : TaskId} (ht : Settled (st t)) :
    Settled (upd st u s t) := by
  by_cases hu : t = u
  · subst hu
    rw [upd_self]
    exact h.resolve_left fun hc => hc ht
  · rw [upd_ne _ _ hu]; exact ht

theorem fin_upd {st : TaskId → TaskStatus} {u : TaskId} {s : TaskStatus} (h : ¬ Settled (st u)) {t : TaskId} (ht : Fin (st t)) :
    Fin (upd st u s t) := by
  by_cases hu : t = u
  · subst hu
    exact absurd (show 30 ≤ (st t).code by unfold Fin at ht; omega) h
  · rw [upd_ne _ _ hu]; exact ht

/-- Settled tasks keep their status, and the tasks that become settled are skipped. -/
def Skips (G G' : GS) : Prop := ∀ t, (Settled (G.st t) → G'.st t = G.st t) ∧ (Settled (G'.st t) → Settled (G.st t) ∨ G'.st t = .skipped)

theorem Skips.same {G G' : GS} (h : G'.st = G.st) : Skips G G' := fun t => ⟨fun _ => by rw [h], fun ht => Or.inl (by rw [← h]; exact ht)⟩

theorem Skips.upd {G G' : GS} {u : TaskId} {s : TaskStatus} (h : G'.st = upd G.st u s) (hu : ¬ Settled (G.st u)) (hs : ¬ Settled s ∨ s = .skipped) :
    Skips G G' := by
  intro t
  by_cases ht : t = u
  · subst ht
    refine ⟨fun hc => absurd hc hu, fun hc => Or.inr ?_⟩
    rw [h, upd_self] at hc ⊢
    exact hs.resolve_left fun hx => hx hc
  · rw [h, upd_ne _ _ ht]
    exact ⟨fun _ => rfl, Or.inl⟩

/-- A step of `enterTasks` or `releaseTask` for instance `i`. -/
theorem own_inner_as {W : TaskId → Nat → Prop} (hset : ∀ e i o, env.settingsOk e i o = true) (h : IS g (Single g) (Fact env g i) W I (loadOf e i) G) (wf : WellFormed g)
    (os : OrderSafe g) (hI : e.insts[i]? = some I) (hcur : e.cur = i) (hfr : Frames e.stack G.stk) (hst : e.stack ≠ [])
    (hfo : I.force = false) (hh : ∀ h o, I.host = some (h, o) → h ≠ i) : Post env g i W (e.step env) (fun G' => Skips G G' ∧ Enters g i (endings I) G e (e.step env) G') := by
  have hopen := h.inv.tgt
  unfold Enters
  unfold Eng.step
  generalize hs : e.stack = s at hfr
  generalize hk : G.stk = k at hfr
  cases hfr with
  | nil => exact absurd hs hst
  | @release s k u hfr =>
    dsimp only
    intro I' hI' _ _
    have h1 : (e.modI e.cur (fun I => I.release ⟨false, u⟩)).insts[i]? = some (I.release ⟨false, u⟩) := by rw [hcur]; exact modI_self hI _
    dsimp only at hI'
    rw [h1] at hI'; cases hI'
    obtain ⟨G', h2, h3, h4⟩ := h.release wf hk
    refine ⟨G', ?_, ?_, .same h4, ⟨fun t ht => by rw [h4]; exact ht, fun t ht => by rw [h4]; exact ht⟩, rfl, Or.inl ?_⟩
    · have hl : loadOf (e.modI e.cur (fun I => I.release ⟨false, u⟩)) i = loadOf e i := Born.load (o := 0) (.mild fun J _ => .calm (Calm.release J _))
      show IS _ _ _ _ _ (loadOf (e.modI e.cur (fun I => I.release ⟨false, u⟩)) i) _
      rw [hl]; exact h2
    · show Frames (if e.cur = i then s else []) _
      rw [if_pos hcur, h3]; exact hfr
    · refine ⟨by simp only [ssize]; omega, fun J hJ => ?_⟩
      have hJ : (e.modI e.cur (fun I => I.release ⟨false, u⟩)).insts[i]? = some J := hJ
      rw [h1] at hJ; cases hJ
      exact Nat.le_of_eq (endings_flows (Calm.release I _).flows)
  | @enter s k u es hfr =>
    cases es with
    | nil =>
      dsimp only
      intro I' hI' _ _
      have hI' : e.insts[i]? = some I' := hI'
      rw [hI] at hI'; cases hI'
      refine ⟨G, h, ?_, .same rfl, ⟨fun t ht => ht, fun t ht => ht⟩, rfl, Or.inl ?_⟩
      · show Frames (if e.cur = i then _ else []) _
        rw [if_pos hcur, hk]; exact .release hfr
      · exact ⟨by simp only [ssize, List.length_nil]; omega, fun J (hJ : e.insts[i]? = some J) => by rw [hI] at hJ; cases hJ; exact Nat.le_refl _⟩
    | cons x xs =>
      dsimp only
      unfold Eng.enterEntry
      rw [hcur, hI]
      dsimp only
      have hI1 : (e.modI i (fun _ => (I.enterTask x.task).1)).insts[i]? = some (I.enterTask x.task).1 := modI_self hI _
      have hB1 : Born i 0 false e (e.modI i (fun _ => (I.enterTask x.task).1)) := .mild fun J hJ => by
        rw [hI] at hJ; cases hJ
        exact .calm (Calm.enterTask I _)
      have hmem : (u, x :: xs) ∈ G.stk := by rw [hk]; exact List.mem_cons_self
      have hnf : ¬ Settled (G.st x.task.id) := (hopen _ hmem x List.mem_cons_self).not_settled
      have hends : ∀ J, (e.modI i (fun _ => (I.enterTask x.task).1)).insts[i]? = some J → endings J ≤ endings I := fun J hJ => by
        rw [hI1] at hJ; cases hJ
        exact Nat.le_of_eq (endings_flows (Calm.enterTask I _).flows)
      cases hd : (I.enterTask x.task).2.2 with
      | notReady =>
        dsimp only
        intro I' hI' _ _
        dsimp only at hI'
        rw [hI1] at hI'; cases hI'
        obtain ⟨G', h2, h3, h4⟩ := h.enterWait wf hk hd
        refine ⟨G', ?_, ?_, .upd h4 hnf (Or.inl (by simp [Settled, TaskStatus.code])), ⟨fun t ht => by rw [h4]; exact settled_upd (Or.inl hnf) ht, fun t ht => by rw [h4]; exact fin_upd hnf ht⟩, hcur, Or.inl ?_⟩
        · show IS _ _ _ _ _ (loadOf (e.modI i (fun _ => (I.enterTask x.task).1)) i) _
          rw [hB1.load]; exact h2
        · show Frames (if e.cur = i then _ else []) _
          rw [if_pos hcur, h3]; exact .enter hfr
        · exact ⟨by simp only [ssize, List.length_cons]; omega, hends⟩
      | eval =>
        dsimp only
        rw [if_pos (hset _ _ _)]
        intro I' hI' _ _
        have hI' : (e.modI i (fun _ => (I.enterTask x.task).1)).insts[i]? = some I' := hI'
        rw [hI1] at hI'; cases hI'
        obtain ⟨G', h2, h3, h4, h0⟩ := h.enterEval wf hk hd
        refine ⟨G', ?_, ?_, .upd h4 hnf (Or.inl (by simp [Settled, TaskStatus.code])), ⟨fun t ht => by rw [h4]; exact settled_upd (Or.inl hnf) ht, fun t ht => by rw [h4]; exact fin_upd hnf ht⟩, hcur, Or.inl ?_⟩
        · show IS _ _ _ _ _ (loadOf ((e.modI i (fun _ => (I.enterTask x.task).1)).schedule i _) i) _
          have : loadOf ((e.modI i (fun _ => (I.enterTask x.task).1)).schedule i (I.enterTask x.task).2.1) i =
              upd (loadOf e i) (I.enterTask x.task).2.1 (loadOf e i (I.enterTask x.task).2.1 + 1) := by
            funext p
            have hp : loadOf (e.modI i (fun _ => (I.enterTask x.task).1)) i p = loadOf e i p := congrFun hB1.load p
            unfold loadOf at hp ⊢
            rw [cntOf_schedule]
            show load _ (liveOf (e.modI i (fun _ => (I.enterTask x.task).1)) i p) = _
            by_cases hpo : p = (I.enterTask x.task).2.1
            · subst hpo
              rw [upd_self, upd_self]
              have h1 : load (cntOf e i (I.enterTask x.task).2.1) (liveOf e i (I.enterTask x.task).2.1) = 0 := h0
              rw [h1] at hp ⊢
              rw [load_zero] at hp
              rw [hp.1, hp.2]; rfl
            · rw [upd_ne _ _ hpo, upd_ne _ _ hpo]; exact hp
          rw [this]; exact h2
        · show Frames (if e.cur = i then _ else []) _
          rw [if_pos hcur, h3]; exact .enter hfr
        · refine ⟨?_, hends⟩
          show ssize (.enter xs :: .release ⟨false, u⟩ :: s) < _
          simp only [ssize, List.length_cons]; omega
      | skip =>
        dsimp only
        obtain ⟨ob, I2, es', G', a1, a2, a3, a4, a5, a6, a7, a8, a9⟩ := h.enterSkip wf os hk hd
        have hx := h.xref hk
        unfold Eng.taskSkipped
        rw [hI1]
        dsimp only
        rw [a1]
        dsimp only
        rw [a2, a4]
        dsimp only
        have hI2 : ((e.modI i (fun _ => (I.enterTask x.task).1)).modI i (fun _ => I2)).insts[i]? = some I2 := modI_self hI1 _
        have c1 := Calm.enterTask I x.task
        have c2 := Calm.skipTask (I.enterTask x.task).1 (I.enterTask x.task).2.1 x.task
        rw [a4] at c2
        intro I' hI' _ _
        rw [a3] at hI' ⊢
        obtain ⟨b1, b2, b3, b5⟩ := finishTask_own (t := x.task) (es := es') (rest := .enter xs :: .release ⟨false, u⟩ :: s)
          (ntf := decide ((I.defn.toLinks x.task).length = 0)) hI2 (by rw [c2.host, c1.host]; exact hh) (by rw [c2.force, c1.force]; exact hfo)
          (fun hx => a7 (of_decide_eq_true hx))
        rw [b1] at hI'
        cases hI'
        refine ⟨G', ?_, ?_, .upd a8 hnf (Or.inr rfl), ?_, b3, Or.inr ?_⟩
        · have hB2 : Born i 0 false (e.modI i (fun _ => (I.enterTask x.task).1)) ((e.modI i (fun _ => (I.enterTask x.task).1)).modI i (fun _ => I2)) := .mild fun J hJ => by
            rw [hI1] at hJ; cases hJ
            exact .calm c2
          rw [b2, hB2.load, hB1.load]; exact a6
        · rw [if_pos b3, a5]
          exact (Frames.enter hfr).finish (by rw [hx]) b5
        · exact ⟨fun t ht => by rw [a8]; exact settled_upd (Or.inl hnf) ht, fun t ht => by rw [a8]; exact fin_upd hnf ht⟩
        · obtain ⟨td, htd, hid⟩ := h.xtask wf hk
          refine ⟨td, htd, by rw [hid]; exact hnf, by rw [hid, a8, upd_self]; simp [Fin, TaskStatus.code], Nat.le_trans (ssize_finish b5) ?_, fun J hJ => ?_⟩
          rotate_left
          · rw [b1] at hJ; cases hJ
            have he := (endings_flows c2.flows).trans (endings_flows c1.flows)
            have hl : I.defn.toLinks x.task = g.toLinks td.id := by rw [hid, hx, ← h.defn]; rfl
            rw [hl]
            exact finish_endings he (by simp [Fin, TaskStatus.code]) _
          have := toLinks_length g x.task.id
          rw [a9]
          simp only [ssize, List.length_cons]; omega

/-- A step of `enterTasks` or `releaseTask` for instance `i`. -/
theorem own_inner {W : TaskId → Nat → Prop} (hset : ∀ e i o, env.settingsOk e i o = true) (h : IS g (Single g) (Fact env g i) W I (loadOf e i) G) (wf : WellFormed g)
    (os : OrderSafe g) (hI : e.insts[i]? = some I) (hcur : e.cur = i) (hfr : Frames e.stack G.stk) (hst : e.stack ≠ [])
    (hfo : I.force = false) (hh : ∀ h o, I.host = some (h, o) → h ≠ i) : Post env g i W (e.step env) (Enters g i (endings I) G e (e.step env)) := by
  intro I' hI' a b
  obtain ⟨G', h1, h2, _, h3⟩ := own_inner_as hset h wf os hI hcur hfr hst hfo hh I' hI' a b
  exact ⟨G', h1, h2, h3⟩

/-- The graphs in scope. -/
structure Scope (g : Graph) : Prop where
  wf : WellFormed g
  os : OrderSafe g
  sub : ∀ t ∈ g.tasks, t.act.sub? ≠ none → t.kind = .basic

/-- No instance belongs to a task of instance `i`. -/
def NoHost (e : Eng) (i : Nat) : Prop := ∀ (j : Nat) (J : Inst) (h o : Nat), e.insts[j]? = some J → J.host = some (h, o) → h ≠ i

/-- The invariant of instance `i`. -/
def Loc (env : Env) (e : Eng) (i : Nat) (I : Inst) : Prop :=
  ∃ G, IS I.defn.main (Single I.defn.main) (Fact env I.defn.main i) (Waits I.defn.main (Calmed e i)) I (loadOf e i) G ∧
    Frames (if e.cur = i then e.stack else []) G.stk

/-- The invariant of instance `i` directly after its start. -/
def Fresh (env : Env) (W : TaskId → Nat → Prop) (e : Eng) (i : Nat) (I : Inst) : Prop :=
  NoHost e i ∧ ∃ G, IS I.defn.main (Single I.defn.main) (Fact env I.defn.main i) W I (cntOf e i) G ∧
    Frames (if e.cur = i then e.stack else []) G.stk ∧ ∀ o, cntOf e i o ≤ 1

/-- The invariant of all instances in scope. -/
def LInv (env : Env) (e : Eng) : Prop :=
  ∀ (i : Nat) (I : Inst), e.insts[i]? = some I → I.handling = false → I.force = false → Scope I.defn.main → Served e i → Loc env e i I

theorem NoHost.live (h : NoHost e i) (o : Nat) : liveOf e i o = 0 := by
  unfold liveOf
  rw [List.countP_eq_zero]
  intro J hJ hx
  obtain ⟨j, hj⟩ := List.getElem?_of_mem hJ
  exact h j J i o hj (of_decide_eq_true hx).1 rfl

theorem NoHost.load (h : NoHost e i) (h1 : ∀ o, cntOf e i o ≤ 1) : loadOf e i = cntOf e i := by
  funext o
  unfold loadOf
  rw [h.live]
  have := h1 o
  rcases Nat.lt_or_ge (cntOf e i o) 1 with h2 | h2
  · rw [show cntOf e i o = 0 by omega]; rfl
  · rw [show cntOf e i o = 1 by omega]; rfl

theorem Fresh.loc (h : Fresh env (Waits I.defn.main (Calmed e i)) e i I) : Loc env e i I := by
  obtain ⟨h1, G, h2, h3, h4⟩ := h
  exact ⟨G, by rw [h1.load h4]; exact h2, h3⟩

/-- All instances only age. -/
theorem aged_ext {I I' : Inst} (h : Ext I I') : Aged I I' := by
  refine ⟨h.host, ?_, fun hm => ?_, h.handling⟩
  · obtain ⟨ps, hp⟩ := h.posted
    unfold endings
    rw [hp, List.countP_append]; omega
  · obtain ⟨evs, ht⟩ := h.trace
    rw [ht]; exact List.mem_append_right _ hm

theorem Served.back {e' : Eng} (h : EExt e e') (hs : Served e' i) : Served e i := by
  have key : ∀ (k : Nat) (K : Inst), e.insts[k]? = some K → ∃ K', e'.insts[k]? = some K' ∧ Aged K K' := fun k K hK => by
    obtain ⟨K', h1, h2⟩ := h k K hK
    exact ⟨K', h1, aged_ext h2⟩
  refine ⟨Sees.endsOnce key hs.1, fun hi J hJ hm => ?_⟩
  obtain ⟨J', h1, h2⟩ := Sees.mem key hJ
  exact hs.2 hi J' h1 (h2.eh hm)

theorem Calmed.back {e' : Eng} (h : EExt e e') (hs : Calmed e' i) : Calmed e i := by
  intro J hJ o ho
  obtain ⟨k, hk⟩ := List.getElem?_of_mem hJ
  obtain ⟨J', h1, h2⟩ := h k J hk
  have := hs J' (List.mem_of_getElem? h1) o (h2.host.trans ho)
  cases hc : J.handling with
  | false => rfl
  | true => rw [h2.handling hc] at this; cases this

theorem Waits.mono {p q : Prop} (h : q → p) {t : TaskId} {n : Nat} (hw : Waits g p t n) : Waits g q t n :=
  ⟨hw.1, hw.2.1, fun hq => hw.2.2 (h hq)⟩

theorem SimI.like {I' : Inst} (h : SimI I G) (hl : Like I I') : SimI I' G := by
  have htab : I'.tasks = I.tasks := by rw [hl.eq]
  have htr : I'.trace = I.trace := by rw [hl.eq]
  have hst : I'.status = I.status := by rw [hl.eq]
  have hlk : ∀ k, I'.linkSt k = I.linkSt k := fun k => by unfold Inst.linkSt; rw [hl.eq]
  refine ⟨fun t o hto => ?_, fun o ob hob => ?_, fun t => by rw [htab]; exact h.tab t, fun k => (hlk k).trans (h.lk k),
    fun k s => by rw [htr]; exact h.dec k s, fun t => by rw [htr]; exact h.ready t, fun t => by rw [htr]; exact h.ex t, by rw [hst]; exact h.compl⟩
  · obtain ⟨ob, h1, h2, h3⟩ := h.obj t o hto
    have hc := hl.core o
    rw [h1] at hc
    cases h4 : I'.objs[o]? with
    | none => rw [h4] at hc; cases hc
    | some ob' =>
      rw [h4] at hc
      simp only [Option.map_some, Option.some.injEq, Prod.mk.injEq] at hc
      exact ⟨ob', rfl, hc.1.trans h2, hc.2.trans h3⟩
  · have hc := hl.core o
    rw [hob] at hc
    cases h4 : I.objs[o]? with
    | none => rw [h4] at hc; cases hc
    | some ob' =>
      rw [h4] at hc
      simp only [Option.map_some, Option.some.injEq, Prod.mk.injEq] at hc
      rw [hc.1]
      exact h.objI o ob' h4

/-- Steps of other instances. -/
theorem Loc.seen {e' : Eng} (hs : Sees i e e') (hx : EExt e e') (hsv : Served e' i) (hI : e.insts[i]? = some I) (h : Loc env e i I)
    (hc : e.cur = i → e.stack = []) : ∃ I', e'.insts[i]? = some I' ∧ Loc env e' i I' := by
  obtain ⟨G, hIS, hfr⟩ := h
  obtain ⟨I', hI', hlike⟩ := hs.inst hsv.2 I hI
  have hdef : I'.defn = I.defn := by rw [hlike.eq]
  have hemp : (if e.cur = i then e.stack else []) = [] := by
    split
    · rename_i hx; exact hc hx
    · rfl
  have hzero : ∀ o, loadOf e i o = 0 → loadOf e' i o = 0 := by
    intro o ho
    have h1 := load_zero.1 ho
    have h2 := hs.bal hsv.1 o
    exact load_zero.2 ⟨by omega, by omega⟩
  refine ⟨I', hI', { G with pend := fun t => (G.obj t).elim 0 (loadOf e' i) }, ⟨by rw [hdef], ?_, ?_, ?_, ?_, ?_⟩, ?_⟩
  · rw [hdef]
    refine { hIS.inv with pend := fun t => ?_ }
    dsimp only
    have hp := hIS.inv.pend t
    cases ho : G.obj t with
    | none =>
      have hst := (hIS.inv.objs t).1 ho
      rw [hst]
      exact ⟨(fun hc => nomatch hc), (fun hc => nomatch hc), fun _ _ => rfl⟩
    | some o =>
      have hcn := hIS.cnt1 t o ho
      rw [← hcn] at hp
      show PendOK _ _ (loadOf e' i o)
      refine ⟨fun hr => ?_, fun hw => ?_, fun h1 h2 => hzero o (hp.2.2 h1 h2)⟩
      · have h1 := load_one.1 (hp.1 hr)
        have h2 := hs.bal hsv.1 o
        have h3 := hs.cnt o
        exact load_one.2 ⟨by omega, by omega⟩
      · obtain ⟨w1, w2, w3⟩ := hp.2.1 hw
        have h1 := load_le.1 w1
        have h2 := hs.bal hsv.1 o
        refine ⟨load_le.2 (by omega), fun hn => w2 fun h0 => hn (hzero o h0), fun hcalm hsub h0 => ?_⟩
        have h3 := w3 (Calmed.back hx hcalm) hsub
        have h4 := hs.full hsv.1 hcalm o
        have h5 := load_zero.1 h0
        exact h3 (load_zero.2 ⟨by omega, by omega⟩)
  · exact (hIS.sim.like hlike).ctl G.stk _
  · intro t o ho
    dsimp only at ho ⊢
    rw [ho]; rfl
  · intro o ho
    exact hIS.cnt2 o fun h0 => ho (hzero o h0)
  · rw [hlike.eq]; exact hIS.nodup
  · show Frames _ G.stk
    rcases hs.ctl with ⟨h1, h2⟩ | h1
    · rw [h1, h2]; exact hfr
    · rw [if_neg h1, ← hemp]; exact hfr

theorem NoHost.closed (h : NoHost e i) (hI : e.insts[i]? = some I) : Closed (fun j => j ≠ i) e :=
  ⟨fun j a o J hJ _ ha => h j J a o hJ ha, fun j hj hc => by
    have := (List.getElem?_eq_some_iff.1 hI).1; omega⟩

/-- Steps of other instances. -/
theorem NoHost.other {e' : Eng} (hk : Keep (fun j => j ≠ i) e e') (hi : i ≠ 0) (hI : e.insts[i]? = some I) (hno : NoHost e i) :
    e'.insts[i]? = some I ∧ NoHost e' i := by
  obtain ⟨k1, _, k3, k4, k5, k6⟩ := hk (hno.closed hI)
  have hI' : e'.insts[i]? = some I := by rw [k5 i (fun hx => hx rfl) hi]; exact hI
  refine ⟨hI', fun j J a o hJ ha => ?_⟩
  by_cases hj : j = i
  · subst hj
    rw [hI'] at hJ; cases hJ
    exact hno j I a o hI ha
  · exact k1.1 j a o J hJ hj ha

/-- Steps of other instances. -/
theorem Fresh.other {W : TaskId → Nat → Prop} {e' : Eng} (hk : Keep (fun j => j ≠ i) e e') (hi : i ≠ 0) (hI : e.insts[i]? = some I)
    (h : Fresh env W e i I) (hc : e.cur = i → e.stack = []) : Fresh env W e' i I := by
  obtain ⟨hno, G, hIS, hfr, hle⟩ := h
  obtain ⟨k1, _, k3, k4, k5, k6⟩ := hk (hno.closed hI)
  have hcnt : cntOf e' i = cntOf e i := by
    funext o
    refine k6 _ fun w hw => ?_
    exact decide_eq_false fun hx => hw hx.1
  have hemp : (if e.cur = i then e.stack else []) = [] := by
    split
    · rename_i hx; exact hc hx
    · rfl
  refine ⟨(hno.other hk hi hI).2, G, by rw [hcnt]; exact hIS, ?_, by rw [hcnt]; exact hle⟩
  rcases k3 with ⟨h1, h2⟩ | h1
  · rw [h1, h2]; exact hfr
  · rw [if_neg h1, ← hemp]; exact hfr

/-- Steps of the instance itself. -/
theorem Loc.own {e' : Eng} {R : GS → Prop} (hp : Post env I.defn.main i (Waits I.defn.main (Calmed e i)) e' R) (hx : EExt e e')
    {I' : Inst} (hI' : e'.insts[i]? = some I') (hd : I'.defn = I.defn) (hha : I'.handling = false) (hfo : I'.force = false) : Loc env e' i I' := by
  obtain ⟨G', h1, h2, _⟩ := hp I' hI' hha hfo
  rw [← hd] at h1
  exact ⟨G', h1.mono fun t n hw => hw.mono fun hc => Calmed.back hx hc, h2⟩

theorem Readied.lt {j o : Nat} (h : Readied e j o) : j < e.insts.length := by
  obtain ⟨J, _, hJ, _⟩ := h
  exact (List.getElem?_eq_some_iff.1 hJ).1

/-- Instances created while a task of another instance is evaluated. -/
theorem evals_new (hset : ∀ e i o, env.settingsOk e i o = true) {j o : Nat} {s : Option String} {e' : Eng} (h : Evals env j o s e e')
    (ok : EngOK e) (hr : Readied e j o) (hst : e.stack = []) :
    ∀ (k : Nat) (K : Inst), e.insts.length ≤ k → e'.insts[k]? = some K → NoHost e' k ∧ (Scope K.defn.main → ∀ W, Fresh env W e' k K) := by
  induction h with
  | refl e =>
    intro k K hk hK
    rw [List.getElem?_eq_none hk] at hK; cases hK
  | inst e f hf =>
    intro k K hk hK
    rw [List.getElem?_eq_none (by rw [modI_length]; exact hk)] at hK; cases hK
  | reply e r =>
    intro k K hk hK
    have hK : e.insts[k]? = some K := hK
    rw [List.getElem?_eq_none hk] at hK; cases hK
  | sub e uri d inputs hs hd hi =>
    intro k K hk hK
    have fr := StartFrame.startInstance (env := env) e.insts.length (e.newEmbedded j o uri d) inputs
    have hkl := (List.getElem?_eq_some_iff.1 hK).1
    rw [fr.len, newEmbedded_length] at hkl
    have hk' : k = e.insts.length := by omega
    subst hk'
    have hn := newEmbedded_new e j o uri d
    have hdef : K.defn = d := by
      obtain ⟨K', h1, h2⟩ := ((Good.startInstance (env := env) e.insts.length inputs (e.newEmbedded j o uri d))
        ((Good.newEmbedded (i := j) (o := o) (uri := uri) (d := d) fun _ => hr) ok).1).2 _ _ hn
      rw [hK] at h1; cases h1
      exact h2.defn
    have hq : ∀ p, cntOf (e.newEmbedded j o uri d) e.insts.length p = 0 := by
      intro p
      unfold cntOf
      rw [List.countP_eq_zero]
      intro w hw hx
      have := Readied.lt (ok.queue w hw)
      have := (of_decide_eq_true hx).1
      omega
    have hno : NoHost (startInstance env (e.newEmbedded j o uri d) e.insts.length inputs) e.insts.length := by
      intro a A b p hA hb
      by_cases ha : a = e.insts.length
      · subst ha
        obtain ⟨K', x1, x2⟩ := ((Good.startInstance (env := env) e.insts.length inputs (e.newEmbedded j o uri d))
          ((Good.newEmbedded (i := j) (o := o) (uri := uri) (d := d) fun _ => hr) ok).1).2 _ _ hn
        rw [hA] at x1; cases x1
        rw [x2.host] at hb; cases hb
        omega
      · have hal := (List.getElem?_eq_some_iff.1 hA).1
        rw [fr.len, newEmbedded_length] at hal
        rw [fr.others a ha, newEmbedded_getElem? _ _ _ _ _ (by omega)] at hA
        by_cases h0 : a = 0
        · subst h0
          rw [ok.host0 A hA] at hb; cases hb
        · obtain ⟨c, q, y1, y2, _⟩ := ok.hosts a A hA h0
          rw [hb] at y1; cases y1
          omega
    refine ⟨hno, fun hsc W => ?_⟩
    obtain ⟨I', G, h1, h2, h3, h4, h5⟩ := IS.startInstance (single := Single d.main) (F := Fact env d.main e.insts.length) (W := W) hset inputs
      (by rw [hdef] at hsc; exact hsc.wf) hn hq ⟨rfl, rfl, rfl, rfl⟩
    rw [hK] at h1; cases h1
    refine ⟨hno, G, by rw [h2]; exact h3, ?_, h5⟩
    rw [h4, fr.stack]
    show Frames (if _ then e.stack else []) []
    rw [hst, ite_self]; exact .nil
  | @trans e f g h1 h2 ih1 ih2 =>
    intro k K hk hK
    obtain ⟨okf, exf⟩ := h1.good hr ok
    have hrf := hr.ext exf
    have hstf : f.stack = [] := by rw [h1.obj.2.2.2.1]; exact hst
    by_cases hkf : f.insts.length ≤ k
    · exact ih2 okf hrf hstf k K hkf hK
    · obtain ⟨K', hK'⟩ : ∃ I, f.insts[k]? = some I := ⟨_, List.getElem?_eq_getElem (by omega)⟩
      have hj := Readied.lt hr
      obtain ⟨n1, n2⟩ := ih1 ok hr hst k K' hk hK'
      have hkeep := h2.keep (T := fun a => a ≠ k) (show j ≠ k by omega)
      obtain ⟨n3, n4⟩ := n1.other hkeep (by omega) hK'
      rw [hK] at n3; cases n3
      exact ⟨n4, fun hsc W => Fresh.other hkeep (by omega) hK' (n2 hsc W) (fun _ => hstf)⟩

/-! ### The number of instances -/

theorem complete_len (e : Eng) (i : Nat) : (e.complete i).insts.length = e.insts.length := (EnterFrame.complete e i).len

theorem failHost_len (e : Eng) (i : Nat) (err : Err) : (e.failHost i err).insts.length = e.insts.length := by
  unfold Eng.failHost
  split
  · rfl
  · split
    · rfl
    · exact modI_length ..

theorem globalError_len (e : Eng) (i : Nat) (err : Err) : (e.globalError i err).insts.length = e.insts.length := by
  unfold Eng.globalError
  split
  · rfl
  · split
    · exact modI_length ..
    · dsimp only
      split
      · dsimp only; rw [modI_length, modI_length, modI_length]
      · split
        · rw [modI_length, modI_length, modI_length]
        · rw [failHost_len, modI_length, modI_length]

theorem taskError_len (e : Eng) (i o : Nat) (t : TaskRef) (err : Err) : (e.taskError i o t err).insts.length = e.insts.length := by
  unfold Eng.taskError
  split
  · rfl
  · split
    · exact modI_length ..
    · dsimp only
      split
      · split
        · unfold Eng.appendErrorData; rw [modI_length, modI_length, modI_length]
        · rw [failHost_len, modI_length, modI_length]
      · rw [globalError_len]; unfold Eng.appendErrorData; rw [modI_length, modI_length]

theorem taskDone_len (e : Eng) (i o : Nat) (t : TaskRef) : (e.taskDone env i o t).insts.length = e.insts.length := by
  unfold Eng.taskDone
  split
  · rfl
  · split
    · rw [globalError_len]; unfold Eng.appendErrorData; rw [modI_length, modI_length]
    · rw [(EnterFrame.finishTask _ _ _ _ _ _).len, modI_length]

theorem handleResult_len (e : Eng) (i o : Nat) (t : TaskRef) (name : String) (r : EvalOut) :
    (e.handleResult env i o t name r).insts.length = e.insts.length := by
  unfold Eng.handleResult
  split
  · exact taskError_len ..
  · exact taskDone_len ..
  · exact taskDone_len ..
  · exact modI_length ..
  · exact modI_length ..
  · rfl
  · split
    · rfl
    · split
      · rfl
      · rw [globalError_len]; exact modI_length ..

/-! ### Steps -/

theorem keep_pop {T : Nat → Prop} {w : WorkItem} (h : Spec.next env e = some w) (hT : T w.inst) : Keep T e (afterPop env e w) := by
  intro hcl
  refine ⟨hcl, fun v hv => Or.inl (List.mem_of_mem_eraseIdx hv), Or.inl ⟨rfl, rfl⟩, fun j J hJ => ⟨J, hJ, rfl⟩, fun _ _ _ => rfl, fun p hp => ?_⟩
  exact countP_eraseIdx (next_some h).2.2 (hp w hT)

theorem countP_eraseIdx_pos {α : Type} {l : List α} {n : Nat} {a : α} {p : α → Bool} (h : l[n]? = some a) (hp : p a = true) :
    (l.eraseIdx n).countP p + 1 = l.countP p := by
  induction l generalizing n with
  | nil => simp at h
  | cons x xs ih =>
    cases n with
    | zero =>
      rw [List.getElem?_cons_zero, Option.some.injEq] at h
      subst h
      rw [List.eraseIdx_cons_zero, List.countP_cons_of_pos hp]
    | succ n =>
      rw [List.getElem?_cons_succ] at h
      rw [List.eraseIdx_cons_succ, List.countP_cons, List.countP_cons, ← ih h]
      omega

/-- The work of instance `i` after the next item, which is its own, was taken. -/
theorem loadOf_pop {w : WorkItem} (h : Spec.next env e = some w) (h1 : cntOf e w.inst w.obj = 1) (h2 : liveOf e w.inst w.obj = 0) :
    loadOf (afterPop env e w) w.inst = upd (loadOf e w.inst) w.obj 0 := by
  funext o
  have hw := (next_some h).2.2
  by_cases ho : o = w.obj
  · subst ho
    rw [upd_self]
    have := countP_eraseIdx_pos (p := fun v => decide (v.inst = w.inst ∧ v.obj = w.obj)) hw (by simp)
    have h3 : cntOf (afterPop env e w) w.inst w.obj + 1 = cntOf e w.inst w.obj := this
    exact load_zero.2 ⟨by omega, h2⟩
  · rw [upd_ne _ _ ho]
    have h3 : cntOf (afterPop env e w) w.inst o = cntOf e w.inst o := countP_eraseIdx hw (decide_eq_false fun hx => ho hx.2.symm)
    unfold loadOf
    rw [h3]; rfl

/-- Instances that are not touched. -/
theorem Loc.same {e' : Eng} (h1 : e'.insts = e.insts) (h2 : e'.queue = e.queue) (h3 : e'.cur = e.cur) (h4 : e.cur = i → e'.stack = e.stack)
    (h : Loc env e i I) : Loc env e' i I := by
  obtain ⟨G, hIS, hfr⟩ := h
  refine ⟨G, ?_, ?_⟩
  · have ha : loadOf e' i = loadOf e i := by unfold loadOf cntOf liveOf; rw [h1, h2]
    have hb : Calmed e' i = Calmed e i := by unfold Calmed; rw [h1]
    rw [ha, hb]; exact hIS
  · rw [h3]
    by_cases hc : e.cur = i
    · rw [if_pos hc, h4 hc]; rwa [if_pos hc] at hfr
    · rw [if_neg hc]; rwa [if_neg hc] at hfr

/-- The task whose work item is executed next. -/
theorem own_next {w : WorkItem} {full : Prop} (hn : Spec.next env e = some w)
    (h : IS g (Single g) (Fact env g w.inst) (Waits g full) I (loadOf e w.inst) G) :
    ∃ t, G.obj t = some w.obj ∧ Live (G.st t) ∧ (G.st t = .waiting → SubTask g t) ∧ (G.st t = .ready → loadOf e w.inst w.obj = 1) ∧
      loadOf (afterPop env e w) w.inst = upd (loadOf e w.inst) w.obj 0 := by
  have hw := List.mem_of_getElem? (next_some hn).2.2
  have hpos : cntOf e w.inst w.obj ≠ 0 := by
    unfold cntOf
    intro hc
    rw [List.countP_eq_zero] at hc
    exact hc w hw (by simp)
  have hload : loadOf e w.inst w.obj ≠ 0 := fun hc => hpos (load_zero.1 hc).1
  obtain ⟨t, ht⟩ := h.cnt2 _ hload
  have hp := h.inv.pend t
  rw [← h.cnt1 t _ ht] at hp
  by_cases hr : G.st t = .ready
  · obtain ⟨h1, h2⟩ := load_one.1 (hp.1 hr)
    exact ⟨t, ht, Or.inl hr, fun hc => (by rw [hr] at hc; cases hc), fun _ => hp.1 hr, loadOf_pop hn h1 h2⟩
  · by_cases hwt : G.st t = .waiting
    · obtain ⟨w1, w2, _⟩ := hp.2.1 hwt
      have h1 := load_le.1 w1
      exact ⟨t, ht, Or.inr hwt, fun _ => w2 hload, fun hc => absurd hc hr, loadOf_pop hn (by omega) (by omega)⟩
    · exact absurd (hp.2.2 hr hwt) hload

/-- An instance is not hosted by itself. -/
theorem host_ne (ok : EngOK e) (hI : e.insts[i]? = some I) : ∀ a o, I.host = some (a, o) → a ≠ i := by
  intro a o ha
  by_cases h0 : i = 0
  · subst h0
    rw [ok.host0 I hI] at ha; cases ha
  · obtain ⟨b, p, h1, h2, _⟩ := ok.hosts i I hI h0
    rw [ha] at h1; cases h1
    omega

/-- The main flow has no host. -/
theorem EngOK.top (ok : EngOK e) : Sees.Top e := by
  have hl : 0 < e.insts.length := by rw [← ok.ctr]; omega
  obtain ⟨I, hI⟩ : ∃ I, e.insts[0]? = some I := ⟨_, List.getElem?_eq_getElem hl⟩
  exact ⟨I, hI, ok.host0 I hI⟩

theorem waits_two {full : Prop} {t : TaskId} : (SubTask g t → Waits g full t 2) ∧ (¬ SubTask g t → Waits g full t 0) :=
  ⟨fun h => ⟨Nat.le_refl _, fun _ => h, fun _ _ => by omega⟩, fun h => ⟨by omega, fun hc => absurd rfl hc, fun _ hc => absurd hc h⟩⟩

theorem LInv.step (hset : ∀ e i o, env.settingsOk e i o = true) (ok : EngOK e) (h : LInv env e) : LInv env (e.step env) := by
  intro i I' hI' hha hfo hsc hsv
  have hl : 0 < e.insts.length := by rw [← ok.ctr]; omega
  have hEE := (Good.step (env := env) e ok).2
  by_cases hi : i < e.insts.length
  · obtain ⟨I, hI⟩ : ∃ I, e.insts[i]? = some I := ⟨_, List.getElem?_eq_getElem hi⟩
    obtain ⟨I2, hI2, hx⟩ := hEE i I hI
    rw [hI'] at hI2; cases hI2
    have hha0 : I.handling = false := by
      cases hc : I.handling with
      | false => rfl
      | true => rw [hx.handling hc] at hha; cases hha
    have hfo0 : I.force = false := by
      cases hc : I.force with
      | false => rfl
      | true => rw [hx.force hc] at hfo; cases hfo
    rw [hx.defn] at hsc
    have hloc := h i I hI hha0 hfo0 hsc (Served.back hEE hsv)
    have hhost := host_ne ok hI
    by_cases hown : e.stack = [] ∨ e.cur ≠ i
    · by_cases hq : ∀ w, Spec.next env e = some w → w.inst ≠ i
      · obtain ⟨J, h1, h2⟩ := Loc.seen (Sees.step (env := env) (EngOK.top ok) hi hown hq) hEE hsv hI hloc fun hc => hown.resolve_right fun hn => hn hc
        rw [hI'] at h1; cases h1
        exact h2
      · simp only [Classical.not_forall, Classical.not_not] at hq
        obtain ⟨w, hn, hwi⟩ := hq
        subst hwi
        obtain ⟨G, hIS, hfr⟩ := hloc
        have hst := (next_some hn).1
        have hstk : G.stk = [] := by
          rw [hst, ite_self] at hfr
          cases hG : G.stk with
          | nil => rfl
          | cons a as => rw [hG] at hfr; nomatch hfr
        obtain ⟨t, ht, hlive, hwt, hrd, hld⟩ := own_next hn hIS
        have hpost := own_exec (e := afterPop env e w) hIS hsc.wf hsc.os hsc.sub hstk ht hlive hwt waits_two hrd hI hst hld hha0 hhost
        rw [step_next hn] at hI' hEE ⊢
        exact Loc.own hpost hEE hI' hx.defn hha hfo
    · have hst : e.stack ≠ [] := fun hc => hown (Or.inl hc)
      have hc : e.cur = i := Decidable.byContradiction fun hc => hown (Or.inr hc)
      obtain ⟨G, hIS, hfr⟩ := hloc
      rw [if_pos hc] at hfr
      exact Loc.own (own_inner hset hIS hsc.wf hsc.os hI hc hfr hst hfo0 hhost) hEE hI' hx.defn hha hfo
  · cases hn : Spec.next env e with
    | none =>
      exfalso
      have hlt := (List.getElem?_eq_some_iff.1 hI').1
      by_cases hst : e.stack = []
      · rw [step_idle hst hn hl] at hlt; exact hi hlt
      · rw [(EnterFrame.step hst).len] at hlt; exact hi hlt
    | some w =>
      have hst := (next_some hn).1
      have hw := List.mem_of_getElem? (next_some hn).2.2
      have hrd := ok.queue w hw
      have hwl := Readied.lt hrd
      rw [step_next hn] at hI' ⊢
      have g0 : Good e (afterPop env e w) :=
        (Good.pop (next_some hn).2.2).trans (Good.ctl rfl rfl rfl rfl rfl (fun _ _ h => h))
      obtain ⟨ok0, ex0⟩ := g0 ok
      have hrd0 := hrd.ext ex0
      cases ho : outcome env (afterPop env e w) w.inst w.obj with
      | none =>
        rw [exec_none ho] at hI'
        exact absurd (List.getElem?_eq_some_iff.1 hI').1 hi
      | some p =>
        obtain ⟨e', r⟩ := p
        cases hob : (afterPop env e w).obj? w.inst w.obj with
        | none => unfold Spec.outcome at ho; rw [hob] at ho; cases ho
        | some ob =>
          obtain ⟨td, _, h2⟩ := exec_outcome hob ho
          rw [h2] at hI' ⊢
          obtain ⟨e1, hev, h1⟩ := outcome_evals ho
          have hle : e'.insts.length = e1.insts.length := by
            rcases h1 with h1 | ⟨st, h1⟩
            · rw [h1]
            · rw [h1]; exact modI_length ..
          have hlt := (List.getElem?_eq_some_iff.1 hI').1
          rw [handleResult_len, hle] at hlt
          obtain ⟨K, hK⟩ : ∃ K, e1.insts[i]? = some K := ⟨_, List.getElem?_eq_getElem hlt⟩
          obtain ⟨n1, n2⟩ := evals_new hset hev ok0 hrd0 hst i K (Nat.le_of_not_lt hi) hK
          have hwi : w.inst ≠ i := by omega
          have hkeep : Keep (fun a => a ≠ i) e1 (e'.handleResult env w.inst w.obj ob.task td.name r) := by
            refine Keep.trans ?_ (Keep.handleResult _ _ _ _ _ _ hwi)
            rcases h1 with h1 | ⟨st, h1⟩
            · rw [h1]; exact .refl _
            · rw [h1]; exact .setStatus _ _ _ _ hwi
          obtain ⟨n3, _⟩ := n1.other hkeep (by omega) hK
          rw [hI'] at n3; cases n3
          exact (Fresh.other hkeep (by omega) hK (n2 hsc _) (fun _ => by rw [hev.obj.2.2.2.1]; exact hst)).loc

theorem LInv.init (hset : ∀ e i o, env.settingsOk e i o = true) (id uri : String) (d : Def) (ins : AMap String Val) :
    LInv env (Eng.init env id uri d ins) := by
  intro i I hI _ _ hsc _
  have fr := StartFrame.startInstance (env := env) 0 (Eng.new id uri d) ins
  have hl : (Eng.init env id uri d ins).insts.length = 1 := fr.len
  have hi := (List.getElem?_eq_some_iff.1 hI).1
  have h0 : i = 0 := by omega
  subst h0
  have hn : (Eng.new id uri d).insts[0]? = some { defn := d, uri := uri } := rfl
  have ok := engOK_init (env := env) id uri d ins
  obtain ⟨K, h1, h2⟩ := (Good.startInstance (env := env) 0 ins (Eng.new id uri d) (engOK_new id uri d)).2 _ _ hn
  have hI0 : (startInstance env (Eng.new id uri d) 0 ins).insts[0]? = some I := hI
  rw [hI0] at h1; cases h1
  have hd : I.defn = d := h2.defn
  rw [hd] at hsc
  obtain ⟨I', G, a1, a2, a3, a4, a5⟩ := IS.startInstance (single := Single d.main) (F := Fact env d.main 0)
    (W := Waits d.main (Calmed (Eng.init env id uri d ins) 0)) hset ins hsc.wf hn (fun _ => rfl) ⟨rfl, rfl, rfl, rfl⟩
  rw [hI0] at a1; cases a1
  refine Fresh.loc ⟨fun j J a o hJ ha => ?_, G, by rw [hd]; exact a3, ?_, a5⟩
  · have hj := (List.getElem?_eq_some_iff.1 hJ).1
    have hj0 : j = 0 := by omega
    subst hj0
    rw [ok.host0 J hJ] at ha; cases ha
  · show Frames (if (startInstance env (Eng.new id uri d) 0 ins).cur = 0 then (startInstance env (Eng.new id uri d) 0 ins).stack else []) G.stk
    rw [a4, fr.stack]
    show Frames (if _ then [] else []) []
    rw [ite_self]; exact .nil

/-- The invariant holds in every state of every run. -/
theorem LInv.run (hset : ∀ e i o, env.settingsOk e i o = true) (id uri : String) (d : Def) (ins : AMap String Val) (n : Nat) :
    LInv env (Eng.run env (Eng.init env id uri d ins) n) := by
  induction n with
  | zero => exact .init hset id uri d ins
  | succ n ih => exact ih.step hset (engOK_run id uri d ins n)

end Flow.GraphM
