import Verif.Proofs.GraphTree
import Verif.Props.Steps
import Verif.Props.Attrs
import Verif.Spec.Determined

/-
Executions of the main flow: when a task is evaluated, what is known then, and how the data evolve (C108).
-/

namespace Flow.GraphM
open Spec Eng

/-- The status of a task of the main flow. -/
def mst (e : Eng) (t : TaskId) : TaskStatus :=
  match e.insts[0]? with
  | some I => tstat I t
  | none => .notStarted

theorem mst_of {e : Eng} {I : Inst} (h : e.insts[0]? = some I) (t : TaskId) : mst e t = tstat I t := by unfold mst; rw [h]

/-- `N` steps of an execution of the flow `d` without errors that reach the flow. -/
structure Calmly (env : Env) (d : Def) (R : Nat → Eng) (N : Nat) : Prop where
  set : SettingsOk env
  run : ∃ id uri ins, ∀ n, R n = Eng.run env (Eng.init env id uri d ins) n
  cov : Covered d.main
  calls : Leaf d.main ∨ Served (R N) 0
  last : ∃ I, (R N).insts[0]? = some I ∧ Undisturbed I

/-- An execution of the flow `d` that is completed after `N` steps, without errors that reach the flow. -/
structure Course (env : Env) (d : Def) (R : Nat → Eng) (N : Nat) : Prop extends Calmly env d R N where
  compl : ∃ I, (R N).insts[0]? = some I ∧ I.status = .completed

/-- The invariant of the main flow. -/
def Holding (env : Env) (d : Def) (e : Eng) (I : Inst) (G : GS) : Prop :=
  IS d.main (Single d.main) (Fact env d.main 0) (Waits d.main (Calmed e 0)) I (loadOf e 0) G ∧ Frames (if e.cur = 0 then e.stack else []) G.stk

variable {env : Env} {d : Def} {R : Nat → Eng} {N n m : Nat}

namespace Calmly

theorem reach (h : Calmly env d R N) (n : Nat) : Reachable env (R n) := by
  obtain ⟨id, uri, ins, hR⟩ := h.run
  exact ⟨id, uri, d, ins, n, hR n⟩

theorem succ (h : Calmly env d R N) (n : Nat) : R (n + 1) = (R n).step env := by
  obtain ⟨id, uri, ins, hR⟩ := h.run
  rw [hR, hR]; rfl

theorem later (h : Calmly env d R N) {n m : Nat} (hnm : n ≤ m) : R m = Eng.run env (R n) (m - n) := by
  obtain ⟨id, uri, ins, hR⟩ := h.run
  rw [hR, hR, ← Eng.run_add]
  congr 1; omega

theorem inst (h : Calmly env d R N) (n : Nat) : ∃ I, (R n).insts[0]? = some I ∧ I.defn = d := by
  obtain ⟨id, uri, ins, hR⟩ := h.run
  obtain ⟨I, hI⟩ := root_exists (env := env) (id := id) (uri := uri) (d := d) (ins := ins) n
  exact ⟨I, by rw [hR]; exact hI, root_defn hI⟩

theorem ext (h : Calmly env d R N) {n m : Nat} (hnm : n ≤ m) {I J : Inst} (hI : (R n).insts[0]? = some I) (hJ : (R m).insts[0]? = some J) : Ext I J := by
  obtain ⟨K, h1, h2⟩ := (Eng.good_run (env := env) (R n) (m - n) (Eng.engOK_reachable (h.reach n))).2 0 I hI
  rw [← h.later hnm, hJ] at h1; cases h1
  exact h2

theorem calm (h : Calmly env d R N) (hn : n ≤ N) {I : Inst} (hI : (R n).insts[0]? = some I) : Undisturbed I := by
  obtain ⟨J, hJ, hu⟩ := h.last
  have hx := h.ext hn hI hJ
  constructor
  · cases hc : I.handling with
    | false => rfl
    | true => rw [hu.1.symm.trans (hx.handling hc)]
  · cases hc : I.force with
    | false => rfl
    | true => rw [hu.2.symm.trans (hx.force hc)]

theorem nohost (h : Calmly env d R N) (hlf : Leaf d.main) (hn : n ≤ N) : NoHost (R n) 0 := by
  obtain ⟨I, hI, hd⟩ := h.inst n
  have hu := h.calm hn hI
  obtain ⟨id, uri, ins, hR⟩ := h.run
  have := noHost_leaf h.set id uri d ins n 0 I (by rw [← hR]; exact hI) hu (by rw [hd]; exact h.cov) (by rw [hd]; exact hlf)
  rw [← hR] at this; exact this

theorem served (h : Calmly env d R N) (hn : n ≤ N) : Served (R n) 0 := by
  rcases h.calls with hlf | hs
  · obtain ⟨I, hI, hd⟩ := h.inst n
    exact (h.nohost hlf hn).served (Eng.engOK_reachable (h.reach n)) hI (h.calm hn hI).1
  · refine Served.back (e' := R N) ?_ hs
    have := (Eng.good_run (env := env) (R n) (N - n) (Eng.engOK_reachable (h.reach n))).2
    rw [← h.later hn] at this
    exact this

theorem state (h : Calmly env d R N) (hn : n ≤ N) : ∃ I G, (R n).insts[0]? = some I ∧ I.defn = d ∧ Undisturbed I ∧ Holding env d (R n) I G := by
  obtain ⟨I, hI, hd⟩ := h.inst n
  have hu := h.calm hn hI
  obtain ⟨G, h1, h2⟩ := covered_loc h.set (h.reach n) hI (by rw [hd]; exact h.cov) hu (Or.inr (h.served hn))
  rw [hd] at h1
  exact ⟨I, G, hI, hd, hu, h1, h2⟩

/-- What one step does: it evaluates a task that is ready or waits for a called flow, or it evaluates none and settles only tasks that
are skipped. -/
theorem step (h : Calmly env d R N) (hn : n < N) :
    (∃ o u e' r, Evaluates env (R n) 0 o ⟨false, u⟩ e' r ∧ (Live (mst (R n) u) ∧ (mst (R n) u = .waiting → SubTask d.main u)) ∧ EndsIn r (mst (R (n + 1)) u) ∧
      ∀ v, v ≠ u → mst (R (n + 1)) v = mst (R n) v) ∨
    ((∀ o t e' r, ¬ Evaluates env (R n) 0 o t e' r) ∧ ∀ t, (Settled (mst (R n) t) → mst (R (n + 1)) t = mst (R n) t) ∧
      (Settled (mst (R (n + 1)) t) → Settled (mst (R n) t) ∨ mst (R (n + 1)) t = .skipped)) := by
  obtain ⟨I, G, hI, hd, hu, hIS, hfr⟩ := h.state (Nat.le_of_lt hn)
  obtain ⟨I', hI', hd'⟩ := h.inst (n + 1)
  have hu' := h.calm hn hI'
  have ok := Eng.engOK_reachable (h.reach n)
  have hsv := h.served (Nat.le_of_lt hn)
  have hsv' := h.served hn
  rw [h.succ] at hI' hsv' ⊢
  have hm := fun t => (mst_of hI t).trans (hIS.tstat t)
  have same : ((R n).stack = [] ∨ (R n).cur ≠ 0) → (∀ w, Spec.next env (R n) = some w → w.inst ≠ 0) →
      ∀ t, mst ((R n).step env) t = mst (R n) t := by
    intro h1 h2 t
    obtain ⟨b', h3, h4⟩ := (Sees.step (env := env) (EngOK.top ok) (List.getElem?_eq_some_iff.1 hI).1 h1 h2).inst hsv'.2 I hI
    rw [mst_of h3, mst_of hI, tstat_like h4]
  have quiet : (∀ w, Spec.next env (R n) = some w → w.inst ≠ 0) → ∀ o t e' r, ¬ Evaluates env (R n) 0 o t e' r := by
    rintro hq o t e' r ⟨⟨w, a, b, _⟩, _⟩
    exact hq w a b
  by_cases hcase : ∃ w, Spec.next env (R n) = some w ∧ w.inst = 0
  · obtain ⟨w, hw, hw0⟩ := hcase
    left
    have hst := (next_some hw).1
    have hstk : G.stk = [] := by
      rw [hst, ite_self] at hfr
      exact hfr.nil_iff
    have hIS' := hIS
    rw [← hw0] at hIS
    obtain ⟨t, ht, hlive, hwt, hone, hpop⟩ := own_next hw hIS
    have hI2 : (afterPop env (R n) w).insts[w.inst]? = some I := by rw [hw0]; exact hI
    have hpost := own_exec_as (e := afterPop env (R n) w) hIS h.cov.wf h.cov.order (Covered.scope h.cov).sub hstk ht hlive hwt waits_two hone hI2 hst hpop hu.1
      (by rw [hw0]; exact host_ne ok hI)
    have hI'' := hI'
    rw [step_next hw] at hI''
    obtain ⟨G', a1, _, a3, ⟨e1, r⟩, a4, a5⟩ := hpost I' (by rw [hw0]; rw [hw0] at hI''; exact hI'') hu'.1 hu'.2
    have hrd : Live (G.st t) ∧ (G.st t = .waiting → SubTask d.main t) := ⟨hlive, hwt⟩
    have hm' := fun v => (mst_of hI' v).trans (a1.tstat v)
    obtain ⟨ob, b1, b2, b3⟩ := hIS.sim.obj t _ ht
    refine ⟨w.obj, t, e1, r, ⟨⟨w, hw, hw0, rfl, by rw [← hw0]; exact a4⟩, ?_⟩, by rw [hm]; exact hrd, by rw [hm']; exact a5, fun v hv => ?_⟩
    · rw [Eng.obj?_eq hI, b1, ← b2]; rfl
    · rcases a3 with ⟨s, _, c2, _⟩ | ⟨c1, _⟩
      · rw [hm', hm, c2, upd_ne _ _ hv]
      · rw [hm', hm, c1]
  · right
    have hq : ∀ w, Spec.next env (R n) = some w → w.inst ≠ 0 := fun w hw h0 => hcase ⟨w, hw, h0⟩
    refine ⟨quiet hq, ?_⟩
    by_cases hst : (R n).stack = [] ∨ (R n).cur ≠ 0
    · intro t
      rw [same hst hq t]
      exact ⟨fun _ => rfl, Or.inl⟩
    · have h1 : (R n).stack ≠ [] := fun hc => hst (Or.inl hc)
      have h2 : (R n).cur = 0 := Decidable.byContradiction fun hc => hst (Or.inr hc)
      rw [if_pos h2] at hfr
      obtain ⟨G', a1, _, a3, _⟩ := own_inner_as h.set hIS h.cov.wf h.cov.order hI h2 hfr h1 hu.2 (host_ne ok hI) I' hI' hu'.1 hu'.2
      intro t
      rw [hm, mst_of hI', a1.tstat]
      exact a3 t

/-- No task is settled at the start. -/
theorem fresh (h : Calmly env d R N) (t : TaskId) : ¬ Settled (mst (R 0) t) := by
  obtain ⟨id, uri, ins, hR⟩ := h.run
  have hn : (Eng.new id uri d).insts[0]? = some { defn := d, uri := uri } := rfl
  obtain ⟨I', G, a1, _, a3, _, _, a6⟩ := IS.startInstance_as (single := Single d.main) (F := Fact env d.main 0)
    (W := Waits d.main (Calmed (Eng.init env id uri d ins) 0)) h.set ins h.cov.wf hn (fun _ => rfl) ⟨rfl, rfl, rfl, rfl⟩
  have hI : (R 0).insts[0]? = some I' := by rw [hR]; exact a1
  rw [mst_of hI, a3.tstat]
  rcases a6 t with hc | hc <;> rw [hc] <;> simp [Settled, TaskStatus.code]

/-- The step evaluates the task. -/
def _root_.Flow.GraphM.EvalAt (env : Env) (e : Eng) (t : TaskId) : Prop := ∃ o e' r, Evaluates env e 0 o ⟨false, t⟩ e' r

theorem _root_.Flow.GraphM.evaluates_fun {e : Eng} {i o o' : Nat} {t t' : TaskRef} {e1 e2 : Eng} {r q : EvalOut} (h : Evaluates env e i o t e1 r)
    (h' : Evaluates env e i o' t' e2 q) : o = o' ∧ t = t' ∧ e1 = e2 ∧ r = q := by
  obtain ⟨⟨w, a1, a2, a3, a4⟩, a5⟩ := h
  obtain ⟨⟨w', b1, b2, b3, b4⟩, b5⟩ := h'
  rw [a1] at b1; cases b1
  rw [a3] at b3; subst b3
  rw [a4] at b4; cases b4
  rw [a5] at b5; cases b5
  exact ⟨rfl, rfl, rfl, rfl⟩

theorem _root_.Flow.GraphM.EndsIn.settled {r : EvalOut} {s : TaskStatus} (h : EndsIn r s) (hr : r ≠ .res .again) : Settled s := by
  cases r with
  | res r =>
    cases r with
    | done => cases h; simp [Settled, TaskStatus.code]
    | wait => cases h; simp [Settled, TaskStatus.code]
    | again => exact absurd rfl hr
    | skip => cases h
    | fail => cases h
  | err _ => cases h; simp [Settled, TaskStatus.code]
  | panic _ => cases h

/-- With this result the task is finished. -/
def _root_.Flow.GraphM.Concludes (r : EvalOut) : Prop := r = .res .done ∨ ∃ x, r = .err x

theorem _root_.Flow.GraphM.EndsIn.fin {r : EvalOut} {s : TaskStatus} (h : EndsIn r s) (hr : Concludes r) : Fin s := by
  rcases hr with rfl | ⟨x, rfl⟩ <;> cases h <;> simp [Fin, TaskStatus.code]

theorem _root_.Flow.GraphM.EndsIn.concludes {r : EvalOut} {s : TaskStatus} (h : EndsIn r s) (hs : Fin s) : Concludes r := by
  cases r with
  | res r =>
    cases r with
    | done => exact Or.inl rfl
    | wait => cases h; simp [Fin, TaskStatus.code] at hs
    | again => cases h; simp [Fin, TaskStatus.code] at hs
    | skip => cases h
    | fail => cases h
  | err x => exact Or.inr ⟨x, rfl⟩
  | panic _ => cases h

/-- The step that evaluates a task. -/
theorem eval (h : Calmly env d R N) (hn : n < N) {o : Nat} {t : TaskId} {e' : Eng} {r : EvalOut} (he : Evaluates env (R n) 0 o ⟨false, t⟩ e' r) :
    Live (mst (R n) t) ∧ EndsIn r (mst (R (n + 1)) t) ∧ (Concludes r → Fin (mst (R (n + 1)) t)) := by
  rcases h.step hn with ⟨o', u, e1, q, a1, a2, a3, _⟩ | ⟨a1, _⟩
  · obtain ⟨rfl, hu, rfl, rfl⟩ := evaluates_fun he a1
    cases hu
    exact ⟨a2.1, a3, a3.fin⟩
  · exact absurd he (a1 _ _ _ _)

theorem keep (h : Calmly env d R N) {t : TaskId} (hs : Fin (mst (R n) t)) (hnm : n ≤ m) (hm : m ≤ N) : mst (R m) t = mst (R n) t := by
  induction m with
  | zero => rw [Nat.le_zero.1 hnm]
  | succ m ih =>
    rcases Nat.lt_or_eq_of_le hnm with hlt | rfl
    · have ih := ih (by omega) (by omega)
      rw [← ih]
      rw [← ih] at hs
      rcases h.step (n := m) (by omega) with ⟨o, u, e1, q, a1, a2, _, a5⟩ | ⟨_, a1⟩
      · by_cases hu : t = u
        · subst hu
          exact absurd hs a2.1.not_fin
        · exact a5 t hu
      · exact (a1 t).1 hs.settled
    · rfl

/-- A task that calls no flow goes on waiting. -/
theorem keep_wait (h : Calmly env d R N) {t : TaskId} (hns : ¬ SubTask d.main t) (hs : Settled (mst (R n) t)) (hnm : n ≤ m) (hm : m ≤ N) :
    mst (R m) t = mst (R n) t := by
  induction m with
  | zero => rw [Nat.le_zero.1 hnm]
  | succ m ih =>
    rcases Nat.lt_or_eq_of_le hnm with hlt | rfl
    · have ih := ih (by omega) (by omega)
      rw [← ih]
      rw [← ih] at hs
      rcases h.step (n := m) (by omega) with ⟨o, u, e1, q, a1, a2, _, a5⟩ | ⟨_, a1⟩
      · by_cases hu : t = u
        · subst hu
          rcases a2.1 with hc | hc
          · rw [hc] at hs; simp [Settled, TaskStatus.code] at hs
          · exact absurd (a2.2 hc) hns
        · exact a5 t hu
      · exact (a1 t).1 hs
    · rfl

/-- After an evaluation that finishes the task there is none. -/
theorem no_more (h : Calmly env d R N) (hn : n < N) {o : Nat} {t : TaskId} {e' : Eng} {r : EvalOut} (he : Evaluates env (R n) 0 o ⟨false, t⟩ e' r)
    (hr : Concludes r) (hnm : n < m) (hm : m ≤ N) : ¬ Live (mst (R m) t) := by
  intro hc
  have a := (h.eval hn he).2.2 hr
  rw [← h.keep (m := m) a hnm hm] at a
  exact hc.not_fin a

/-- The evaluation with which a task was finished or began to wait. -/
theorem final_eval (h : Calmly env d R N) {t : TaskId} (hn : n ≤ N) (hs : Settled (mst (R n) t)) (hk : mst (R n) t ≠ .skipped) :
    ∃ m < n, ∃ o e1 r, Evaluates env (R m) 0 o ⟨false, t⟩ e1 r ∧ r ≠ .res .again ∧ EndsIn r (mst (R n) t) := by
  induction n with
  | zero => exact absurd hs (h.fresh t)
  | succ n ih =>
    have ih := fun a b => ih (by omega) a b
    rcases h.step (n := n) hn with ⟨o, u, e1, q, a1, _, a3, a5⟩ | ⟨_, a1⟩
    · by_cases hu : t = u
      · subst hu
        refine ⟨n, by omega, o, e1, q, a1, fun hc => ?_, a3⟩
        subst hc
        have a3 : mst (R (n + 1)) t = .ready := a3
        rw [a3] at hs; simp [Settled, TaskStatus.code] at hs
      · rw [a5 t hu] at hs hk ⊢
        obtain ⟨m, h1, h2⟩ := ih hs hk
        exact ⟨m, by omega, h2⟩
    · rcases (a1 t).2 hs with h1 | h1
      · rw [(a1 t).1 h1] at hs hk ⊢
        obtain ⟨m, h2, h3⟩ := ih hs hk
        exact ⟨m, by omega, h3⟩
      · exact absurd h1 hk

/-- A task that was entered and is not skipped stays so. -/
theorem started (h : Calmly env d R N) {t : TaskId} (hnm : n ≤ m) (hm : m ≤ N) (ho : ¬ Open (mst (R n) t)) (hk : mst (R n) t ≠ .skipped) :
    ¬ Open (mst (R m) t) ∧ mst (R m) t ≠ .skipped := by
  obtain ⟨I, G, hI, _, _, hH⟩ := h.state (Nat.le_trans hnm hm)
  obtain ⟨J, K, hJ, _, _, hH'⟩ := h.state hm
  rw [mst_of hI, hH.1.tstat] at ho hk
  rw [mst_of hJ, hH'.1.tstat, ← hH'.1.executed]
  have h1 := (hH.1.executed t).2 ⟨ho, hk⟩
  obtain ⟨evs, hevs⟩ := (h.ext hnm hI hJ).trace
  rw [hevs]
  obtain ⟨o, h2⟩ := h1
  exact ⟨o, List.mem_append_right _ h2⟩

theorem entered (h : Calmly env d R N) {t : TaskId} (hnm : n ≤ m) (hm : m ≤ N) (hr : Live (mst (R n) t)) :
    ¬ Open (mst (R m) t) ∧ mst (R m) t ≠ .skipped :=
  h.started hnm hm hr.not_open (by rcases hr with hr | hr <;> rw [hr] <;> exact fun hc => nomatch hc)

/-- The tasks before a task that is evaluated are finished. -/
theorem before (h : Calmly env d R N) (hn : n ≤ N) {a t : TaskId} (ht : Live (mst (R n) t)) (hb : Before d.main a t) : Fin (mst (R n) a) := by
  obtain ⟨I, G, hI, _, _, hIS, _⟩ := h.state hn
  have hm := fun t => (mst_of hI t).trans (hIS.tstat t)
  obtain ⟨l, hl, rfl, hp⟩ := hb
  rw [hm] at ht ⊢
  have key : ∀ {x y : TaskId}, Path d.main x y → ¬ Open (G.st y) → ¬ Open (G.st x) := by
    intro x y hp
    induction hp with
    | refl => exact id
    | step hl _ ih => exact fun hy => Fin.not_open (hIS.inv.preds _ hl (ih hy))
  exact hIS.inv.preds l hl (key hp ht.not_open)

/-- A task that was evaluated before another one. -/
theorem sooner (h : Calmly env d R N) {a t : TaskId} (hn : n < N) (hm : m < N) (ha : EvalAt env (R n) a) (ht : EvalAt env (R m) t) (hb : Before d.main a t) :
    n < m := by
  obtain ⟨o, e1, r, ha⟩ := ha
  obtain ⟨o', e2, q, ht⟩ := ht
  have h1 := h.before (Nat.le_of_lt hm) (h.eval hm ht).1 hb
  have h2 := (h.eval hn ha).1
  apply Decidable.byContradiction
  intro hc
  rw [← h.keep (m := n) h1 (by omega) (by omega)] at h1
  exact h2.not_fin h1

/-- The tasks evaluated are those of the flow itself, and they are ready. -/
theorem own (h : Calmly env d R N) (hn : n ≤ N) {o : Nat} {t : TaskRef} {e' : Eng} {r : EvalOut} (he : Evaluates env (R n) 0 o t e' r) : t = ⟨false, t.id⟩ := by
  obtain ⟨I, G, hI, _, _, hIS, _⟩ := h.state hn
  have h4 := he.task
  rw [Eng.obj?_eq hI] at h4
  cases ho : I.objs[o]? with
  | none => rw [ho] at h4; cases h4
  | some ob =>
    rw [ho] at h4; cases h4
    have := (hIS.sim.objI o ob ho).1
    show ob.task = ⟨false, ob.task.id⟩
    cases hb : ob.task with
    | mk eh i => rw [hb] at this; cases this; rfl

/-- Data that nobody computes stay as they are. -/
theorem idle (h : Calmly env d R N) {p : DataPlan} (hk : p.Kept env R N) {k : String} (hd : p.data k) (hnm : n ≤ m) (hm : m ≤ N)
    (hno : ∀ a, p.owner k = some a → ∀ j, n ≤ j → j < m → ¬ EvalAt env (R j) a) : attrAt (R m) 0 k = attrAt (R n) 0 k := by
  induction m with
  | zero => rw [Nat.le_zero.1 hnm]
  | succ m ih =>
    rcases Nat.lt_or_eq_of_le hnm with hlt | rfl
    · refine Eq.trans ?_ (ih (by omega) (by omega) fun a ha j h1 h2 => hno a ha j h1 (by omega))
      apply Classical.byContradiction
      intro hc
      obtain ⟨o, t, e1, r, h1, h2⟩ := hk m (by omega) k hd hc
      have ht := h.own (by omega) h2
      rw [ht] at h2
      exact hno t.id h1 m (by omega) (by omega) ⟨o, e1, r, h2⟩
    · rfl

/-- The link conditions of a task that succeeds do not fail: otherwise the error reaches the flow. -/
theorem conditions (h : Calmly env d R N) (hn : n < N) {o : Nat} {t : TaskId} {e' : Eng} (he : Evaluates env (R n) 0 o ⟨false, t⟩ e' (.res .done)) :
    ¬ exprFails (d.main.toLinks t) (env.link e' 0) := by
  intro hx
  obtain ⟨I, hI, hd⟩ := h.inst n
  obtain ⟨⟨name, hstep⟩, _, _, hin⟩ := Eng.evaluates_step he
  obtain ⟨I1, ob, hI1, _, _, hd1, _⟩ := hin I hI
  obtain ⟨msg, rows, hrows⟩ := (C03_fails_iff env.prio (env.link e' 0) (d.main.toLinks t)).2 hx
  have hto : I1.defn.toLinks ⟨false, t⟩ = d.main.toLinks t := by rw [hd1, hd]; rfl
  have hdt : I1.doneTask env.prio (env.link e' 0) o ⟨false, t⟩ =
      (((I1.findLinks (I1.defn.toLinks ⟨false, t⟩)).setTaskStatus o .done).applyRows rows, .error msg) := by
    unfold Inst.doneTask
    dsimp only
    rw [hto, hrows]
  obtain ⟨J, hJ⟩ : ∃ J, (R (n + 1)).insts[0]? = some J := (h.inst (n + 1)).imp fun _ hx => hx.1
  have hu := (h.calm hn hJ).1
  rw [h.succ, hstep] at hJ
  simp only [Eng.handleResult, Eng.taskDone, hI1, hdt] at hJ
  obtain ⟨K, hK, hh⟩ := globalError_handling (appendErrorData_self (Eng.modI_self hI1 _) _ _) _
  rw [hK] at hJ; cases hJ
  rw [hh] at hu; cases hu

/-- The links of a task that succeeds. -/
theorem links_done (h : Calmly env d R N) (hn : n < N) {o : Nat} {t : TaskId} {e' : Eng} (he : Evaluates env (R n) 0 o ⟨false, t⟩ e' (.res .done))
    {I : Inst} (hI : (R N).insts[0]? = some I) {k : Nat} {l : LinkDef} (hl : (d.main.toLinks t)[k]? = some l) :
    Followed I.trace l ↔ followedAfterSuccess (d.main.toLinks t) (env.link e' 0) k := by
  obtain ⟨I0, hI0, hd0⟩ := h.inst n
  have hto : I0.defn.toLinks ⟨false, t⟩ = d.main.toLinks t := by rw [hd0]; rfl
  have hnd : ((d.main.toLinks t).map (·.id)).Nodup := (List.Sublist.map _ List.filter_sublist).nodup h.cov.wf.links
  obtain ⟨J, hJ, _, hk⟩ := C03_links_decided (h.reach n) hI0 he (by rw [hto]; exact h.conditions hn he) (by rw [hto]; exact hnd)
  rw [hto] at hk
  obtain ⟨k1, k2⟩ := hk k l hl
  rw [← h.succ] at hJ
  obtain ⟨evs, hevs⟩ := (h.ext hn hJ hI).trace
  obtain ⟨I', G, hI', _, _, hH⟩ := h.state (Nat.le_refl N)
  rw [hI] at hI'; cases hI'
  have hin : ∀ s, s ≠ .unset → lastLink J.trace l.id = s → G.dec l.id = s := by
    intro s hs hx
    have hmem := lastLink_mem (tr := J.trace) (k := l.id) (by rw [hx]; exact hs)
    rw [hx] at hmem
    exact ((hH.1.sim.dec l.id s).1 (by rw [hevs]; exact List.mem_append_right _ hmem)).1.symm
  rw [hH.1.followed]
  constructor
  · intro hf
    apply Classical.byContradiction
    intro hc
    have := hin .false (fun hc => nomatch hc) (k2 hc)
    rw [hf] at this; cases this
  · exact fun hf => hin .true (fun hc => nomatch hc) (k1 hf)

end Calmly

namespace Course

/-! ### The end -/

theorem final (h : Course env d R N) : ∃ I G, (R N).insts[0]? = some I ∧ Holding env d (R N) I G ∧ G.compl ∧ ∀ t, mst (R N) t = G.st t := by
  obtain ⟨I, G, hI, _, _, hH⟩ := h.state (Nat.le_refl N)
  obtain ⟨J, hJ, hs⟩ := h.compl
  rw [hI] at hJ; cases hJ
  exact ⟨I, G, hI, hH, (hH.1.sim.compl.1).2 hs, fun t => (mst_of hI t).trans (hH.1.tstat t)⟩

/-- A task is executed exactly if a step evaluates it. -/
theorem executed_iff (h : Course env d R N) {I : Inst} (hI : (R N).insts[0]? = some I) (t : TaskId) : Executed I.trace t ↔ ∃ n < N, EvalAt env (R n) t := by
  obtain ⟨I', G, hI', hH, hc, hm⟩ := h.final
  rw [hI] at hI'; cases hI'
  rw [hH.1.executed]
  constructor
  · rintro ⟨h1, h2⟩
    have hf := ((hH.1.inv.comp2 hc).1 t).resolve_left h1
    obtain ⟨m, h3, o, e1, r, h4, _⟩ := h.final_eval (Nat.le_refl N) (by rw [hm]; exact hf.settled) (by rw [hm]; exact h2)
    exact ⟨m, h3, o, e1, r, h4⟩
  · rintro ⟨n, hn, o, e1, r, he⟩
    rw [← hm]
    exact h.entered (Nat.le_of_lt hn) (Nat.le_refl N) (h.eval hn he).1

/-- The status at the end of a task whose last evaluation this was. -/
theorem ended (h : Course env d R N) (hn : n < N) {o : Nat} {t : TaskId} {e' : Eng} {r : EvalOut} (he : Evaluates env (R n) 0 o ⟨false, t⟩ e' r)
    (hr : Concludes r) : (r = .res .done ∧ mst (R N) t = .done) ∨ ((∃ x, r = .err x) ∧ mst (R N) t = .failed) := by
  obtain ⟨_, h2, h3⟩ := h.eval hn he
  rw [← h.keep (h3 hr) hn (Nat.le_refl N)] at h2
  rcases hr with rfl | ⟨x, rfl⟩
  · exact Or.inl ⟨rfl, h2⟩
  · exact Or.inr ⟨⟨x, rfl⟩, h2⟩

/-- Only tasks that call flows wait. -/
theorem wait_sub (h : Course env d R N) (hn : n < N) {o : Nat} {t : TaskId} {e' : Eng}
    (he : Evaluates env (R n) 0 o ⟨false, t⟩ e' (.res .wait)) : SubTask d.main t := by
  apply Classical.byContradiction
  intro hns
  obtain ⟨I, G, hI, hH, hc, hm⟩ := h.final
  have h2 : mst (R (n + 1)) t = .waiting := (h.eval hn he).2.1
  have h3 := h.keep_wait hns (n := n + 1) (m := N) (t := t) (by rw [h2]; simp [Settled, TaskStatus.code]) hn (Nat.le_refl N)
  rw [h2, hm] at h3
  rcases (hH.1.inv.comp2 hc).1 t with hx | hx <;> rw [h3] at hx <;> simp [Fin, Open, TaskStatus.code] at hx

/-- The last evaluation of a task that is evaluated. -/
theorem last_eval (h : Course env d R N) {t : TaskId} (hn : n < N) (ht : EvalAt env (R n) t) :
    ∃ m < N, n ≤ m ∧ ∃ o e1 r, Evaluates env (R m) 0 o ⟨false, t⟩ e1 r ∧ Concludes r := by
  obtain ⟨I, G, hI, hH, hc, hm⟩ := h.final
  obtain ⟨o, e1, r, he⟩ := ht
  obtain ⟨h1, h2⟩ := h.entered (Nat.le_of_lt hn) (Nat.le_refl N) (h.eval hn he).1
  rw [hm] at h1 h2
  have hf := ((hH.1.inv.comp2 hc).1 t).resolve_left h1
  obtain ⟨m, h3, o', e2, q, h4, _, h6⟩ := h.final_eval (Nat.le_refl N) (by rw [hm]; exact hf.settled) (by rw [hm]; exact h2)
  have h5 : Concludes q := h6.concludes (by rw [hm]; exact hf)
  refine ⟨m, h3, ?_, o', e2, q, h4, h5⟩
  apply Decidable.byContradiction
  intro hx
  exact h.no_more h3 h4 h5 (m := n) (by omega) (Nat.le_of_lt hn) (h.eval hn he).1

/-- The links of a task that fails. -/
theorem links_failed (h : Course env d R N) {I : Inst} (hI : (R N).insts[0]? = some I) {l : LinkDef} (hl : l ∈ d.main.links)
    (hs : mst (R N) l.src = .failed) : Followed I.trace l ↔ l.type = .error := by
  obtain ⟨I', G, hI', hH, _, hm⟩ := h.final
  rw [hI] at hI'; cases hI'
  rw [hm] at hs
  rw [hH.1.followed]
  exact (hH.1.inv.outs l hl (by rw [hs]; simp [Fin, TaskStatus.code]) (by rw [hs]; exact fun hc => nomatch hc)).2 hs

/-- Which tasks are executed. -/
theorem executed_by (h : Course env d R N) {I : Inst} (hI : (R N).insts[0]? = some I) (t : TaskId) :
    Executed I.trace t ↔ ((∃ td ∈ d.main.tasks, td.id = t) ∧ IsStart d.main t) ∨ ∃ l ∈ d.main.links, l.dst = t ∧ Followed I.trace l := by
  obtain ⟨I', G, hI', hH, hc, hm⟩ := h.final
  rw [hI] at hI'; cases hI'
  rw [hH.1.executed]
  constructor
  · rintro ⟨h1, h2⟩
    rcases hH.1.inv.execd t h1 h2 with h3 | ⟨l, h3, h4, h5⟩
    · refine Or.inl ⟨hH.1.inv.dom t fun hx => h1 ?_, h3⟩
      rw [hx]; simp [Open, TaskStatus.code]
    · exact Or.inr ⟨l, h3, h4, (hH.1.followed l).2 h5⟩
  · rintro (⟨⟨td, h1, rfl⟩, h2⟩ | ⟨l, h1, rfl, h2⟩)
    · exact ⟨hH.1.inv.start td h1 h2, fun hx => (hH.1.inv.skipd _ hx).1 h2⟩
    · have h2 := (hH.1.followed l).1 h2
      exact ⟨Fin.not_open ((hH.1.inv.comp2 hc).2 l h1 h2), fun hx => (hH.1.inv.skipd _ hx).2 l h1 rfl h2⟩

/-- The source of a followed link is executed. -/
theorem source (h : Course env d R N) {I : Inst} (hI : (R N).insts[0]? = some I) {l : LinkDef} (hl : l ∈ d.main.links) (hf : Followed I.trace l) :
    ∃ n < N, EvalAt env (R n) l.src := by
  rw [← h.executed_iff hI]
  obtain ⟨I', G, hI', hH, hc, hm⟩ := h.final
  rw [hI] at hI'; cases hI'
  have hf := (hH.1.followed l).1 hf
  exact (hH.1.executed _).2 ⟨Fin.not_open ((hH.1.inv.lkset l hl).1 (by rw [hf]; exact fun hc => nomatch hc)), hH.1.inv.decsrc l hl hf⟩

end Course

/-! ### Two executions -/

theorem followed_congr {ls : List LinkDef} {ev ev' : LinkDef → ExprOut} (h : ∀ l ∈ ls, ev l = ev' l) (k : Nat) :
    followedAfterSuccess ls ev k ↔ followedAfterSuccess ls ev' k := by
  have hx : ∀ j, exprTrue ls ev j ↔ exprTrue ls ev' j := by
    intro j
    unfold exprTrue
    constructor
    · rintro ⟨l, h1, h2, h3⟩; exact ⟨l, h1, h2, (h l (List.mem_of_getElem? h1)) ▸ h3⟩
    · rintro ⟨l, h1, h2, h3⟩; exact ⟨l, h1, h2, (h l (List.mem_of_getElem? h1)).symm ▸ h3⟩
  unfold followedAfterSuccess
  constructor
  · rintro ⟨l, h1, h2⟩
    refine ⟨l, h1, ?_⟩
    rw [← h l (List.mem_of_getElem? h1)]
    simpa only [hx] using h2
  · rintro ⟨l, h1, h2⟩
    refine ⟨l, h1, ?_⟩
    rw [h l (List.mem_of_getElem? h1)]
    simpa only [hx] using h2

/-! ### Rounds -/

variable {t : TaskId}

theorem roundAt_eval (h : EvalAt env (R n) t) : roundAt env R t (n + 1) = roundAt env R t n + 1 := by
  have h' : ∃ o e' r, Evaluates env (R n) 0 o ⟨false, t⟩ e' r := h
  rw [roundAt, if_pos h']

theorem roundAt_other (h : ¬ EvalAt env (R n) t) : roundAt env R t (n + 1) = roundAt env R t n := by
  have h' : ¬ ∃ o e' r, Evaluates env (R n) 0 o ⟨false, t⟩ e' r := h
  rw [roundAt, if_neg h']; rfl

theorem roundAt_mono (hnm : n ≤ m) : roundAt env R t n ≤ roundAt env R t m := by
  induction m with
  | zero => rw [Nat.le_zero.1 hnm]; exact Nat.le_refl _
  | succ m ih =>
    rcases Nat.lt_or_eq_of_le hnm with hlt | rfl
    · exact Nat.le_trans (ih (by omega)) (Nat.le_add_right _ _)
    · exact Nat.le_refl _

theorem roundAt_lt (h : EvalAt env (R n) t) (hnm : n < m) : roundAt env R t n < roundAt env R t m := by
  have := roundAt_mono (env := env) (R := R) (t := t) (show n + 1 ≤ m from hnm)
  rw [roundAt_eval h] at this
  exact this

/-- There is an evaluation for each round. -/
theorem round_exists {j : Nat} (h : j < roundAt env R t m) : ∃ n < m, EvalAt env (R n) t ∧ roundAt env R t n = j := by
  induction m with
  | zero => exact absurd h (Nat.not_lt_zero _)
  | succ m ih =>
    by_cases he : EvalAt env (R m) t
    · rw [roundAt_eval he] at h
      rcases Nat.lt_or_eq_of_le (Nat.le_of_lt_succ h) with h1 | h1
      · obtain ⟨n, h2, h3⟩ := ih h1
        exact ⟨n, by omega, h3⟩
      · exact ⟨m, by omega, he, h1.symm⟩
    · rw [roundAt_other he] at h
      obtain ⟨n, h2, h3⟩ := ih h
      exact ⟨n, by omega, h3⟩

end Flow.GraphM
