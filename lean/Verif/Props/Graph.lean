import Verif.Proofs.GraphTerm
import Verif.Spec.Plain

/-!
Property theorems about whole executions of flow graphs: C02, C06, C07, C08, C09.
-/

namespace Flow
open Spec GraphM

/-! ### C02 -/

/-- C02: a task that was reported skipped has not been executed and its activity has not been evaluated, neither before
nor, since reports are never withdrawn, at any later time of the execution.

Partial: see `C06_executed_partial`. -/
theorem C02_never_executed_partial {env : Env} (hset : SettingsOk env) {e : Eng} (hr : Reachable env e) {i : Nat} {I : Inst}
    (hI : e.insts[i]? = some I) (hc : Covered I.defn.main) (hu : Undisturbed I) (hsv : Leaf I.defn.main ∨ Served e i) {t : TaskId} {o : Nat}
    (h : .taskStatus o ⟨false, t⟩ .skipped ∈ I.trace) :
    ¬ Executed I.trace t ∧ ∀ p, .evalAct p ⟨false, t⟩ ∉ I.trace ∧ .postAct p ⟨false, t⟩ ∉ I.trace := by
  obtain ⟨G, hG, _⟩ := covered_loc hset hr hI hc hu hsv
  have hok := ((Eng.engOK_reachable hr).ok i I hI).trace
  obtain ⟨post, pre, hs⟩ := List.append_of_mem h
  obtain ⟨h1, h2, h3⟩ : I.defn.fromLinks ⟨false, t⟩ ≠ [] ∧ AllDecided pre (I.defn.fromLinks ⟨false, t⟩) ∧
      ¬ SomeFollowed pre (I.defn.fromLinks ⟨false, t⟩) := (hok.at hs).1
  have hn : ¬ Executed I.trace t := by
    intro hx
    obtain ⟨h4, h5⟩ := (hG.executed t).1 hx
    rcases hG.inv.execd t h4 h5 with h6 | ⟨l, hl, rfl, h6⟩
    · refine h1 (List.filter_eq_nil_iff.2 fun l hl => ?_)
      exact fun hd => h6 l hl (of_decide_eq_true hd)
    · have hm : l ∈ I.defn.fromLinks ⟨false, l.dst⟩ := List.mem_filter.2 ⟨hl, decide_eq_true rfl⟩
      refine h3 ⟨l, hm, ?_⟩
      have h7 : .linkStatus l.id (lastLink pre l.id) ∈ I.trace := by
        rw [hs]; exact List.mem_append_right _ (List.mem_cons_of_mem _ (lastLink_mem (h2 l hm)))
      rw [((hG.sim.dec _ _).1 h7).1, h6]
  refine ⟨hn, fun p => ⟨fun hx => ?_, fun hx => ?_⟩⟩
  all_goals
    obtain ⟨post', pre', hs'⟩ := List.append_of_mem hx
    have h8 : .taskStatus p ⟨false, t⟩ .ready ∈ pre' := hok.at hs'
    exact hn ⟨p, by rw [hs']; exact List.mem_append_right _ (List.mem_cons_of_mem _ h8)⟩

/-- C02: when nothing of a flow is left to do, exactly the tasks are skipped that the graph and the followed links do not
require.

Partial: see `C06_executed_partial`. -/
theorem C02_skipped_iff_partial {env : Env} (hset : SettingsOk env) {e : Eng} (hr : Reachable env e) {i : Nat} {I : Inst}
    (hI : e.insts[i]? = some I) (hc : Covered I.defn.main) (hu : Undisturbed I) (hsv : Leaf I.defn.main ∨ Served e i)
    (hs : e.stack = [] ∨ e.cur ≠ i) (hq : ∀ w ∈ e.queue, w.inst ≠ i) (hw : ∀ t, ¬ HasStatus I t .waiting) {td : TaskDef}
    (ht : td ∈ I.defn.main.tasks) : HasStatus I td.id .skipped ↔ ¬ Runs I.defn.main (Followed I.trace) td.id := by
  obtain ⟨G, h, hfr⟩ := covered_loc hset hr hI hc hu hsv
  have hstk : G.stk = [] := by
    rcases hs with hs | hs
    · rw [hs, ite_self] at hfr; exact hfr.nil_iff
    · rw [if_neg hs] at hfr; exact hfr.nil_iff
  have hfin := h.inv.quiet hc.wf hc.acyclic hstk fun t => ⟨h.no_items hq t, fun hx => hw t ((h.hasStatus (s := .waiting) (fun hc => nomatch hc)).2 hx)⟩
  have hcomp := h.inv.comp1 hfin (fun hn => by rw [hn] at ht; cases ht)
  rw [h.hasStatus (s := .skipped) (fun hc => nomatch hc), h.runs_congr]
  constructor
  · exact fun hx hr => (h.inv.completed hcomp hr).2 hx
  · intro hx
    by_cases hsk : G.st td.id = .skipped
    · exact hsk
    · exact absurd (h.inv.runs hc.acyclic (Fin.not_open (hfin td ht)) hsk) hx

/-! ### C06 -/

/-- C06: in a flow that completed, exactly the tasks are executed that the graph requires given the links that were
followed: the start tasks and the targets of followed links of executed tasks.

Partial: definitions with a safe order of links and in which subflow tasks are not loops, flows that complete without error
handler and without explicit return, no failing settings. If there are subflow tasks, the called subflows end at most once
and, for the main flow, no error handler was started; otherwise it is false (`C07_negation_subflow`). -/
theorem C06_executed_partial {env : Env} (hset : SettingsOk env) {e : Eng} (hr : Reachable env e) {i : Nat} {I : Inst}
    (hI : e.insts[i]? = some I) (hc : Covered I.defn.main) (hu : Undisturbed I) (hsv : Leaf I.defn.main ∨ Served e i) (hs : I.status = .completed) (t : TaskId) :
    Executed I.trace t ↔ Runs I.defn.main (Followed I.trace) t := by
  obtain ⟨G, h, _⟩ := covered_loc hset hr hI hc hu hsv
  rw [h.executed, h.runs_congr]
  constructor
  · rintro ⟨h1, h2⟩
    exact h.inv.runs hc.acyclic h1 h2
  · intro h1
    obtain ⟨h2, h3⟩ := h.inv.completed ((h.sim.compl.1).2 hs) h1
    exact ⟨Fin.not_open h2, h3⟩

/-- C06: at no time has a task been executed that the graph does not require. -/
theorem C06_executed_only_partial {env : Env} (hset : SettingsOk env) {e : Eng} (hr : Reachable env e) {i : Nat} {I : Inst}
    (hI : e.insts[i]? = some I) (hc : Covered I.defn.main) (hu : Undisturbed I) (hsv : Leaf I.defn.main ∨ Served e i) {t : TaskId} (h : Executed I.trace t) :
    Runs I.defn.main (Followed I.trace) t := by
  obtain ⟨G, hG, _⟩ := covered_loc hset hr hI hc hu hsv
  rw [hG.runs_congr]
  obtain ⟨h1, h2⟩ := (hG.executed t).1 h
  exact hG.inv.runs hc.acyclic h1 h2

/-- C06: two executions of the same flow, with whatever scheduling, in which link expressions have the same values and
every task that is executed in both ends the same way, execute the same tasks and follow the same links. -/
theorem C06_schedule_independent_partial {env env' : Env} (hset : SettingsOk env) (hset' : SettingsOk env') {e e' : Eng} (hr : Reachable env e)
    (hr' : Reachable env' e') {i i' : Nat} {I I' : Inst} (hI : e.insts[i]? = some I) (hI' : e'.insts[i']? = some I')
    (hd : I'.defn.main = I.defn.main) (hc : Covered I.defn.main) (hu : Undisturbed I) (hu' : Undisturbed I')
    (hsv : Leaf I.defn.main ∨ Served e i) (hsv' : Leaf I.defn.main ∨ Served e' i') (hs : I.status = .completed)
    (hs' : I'.status = .completed) {val : LinkDef → ExprOut} (hv : ∀ f l, env.link f i l = val l) (hv' : ∀ f l, env'.link f i' l = val l)
    (ho : ∀ t, Executed I.trace t → Executed I'.trace t → (HasStatus I t .failed ↔ HasStatus I' t .failed)) :
    (∀ t, Executed I.trace t ↔ Executed I'.trace t) ∧ ∀ l ∈ I.defn.main.links, Followed I.trace l ↔ Followed I'.trace l := by
  obtain ⟨G, h, _⟩ := covered_loc hset hr hI hc hu hsv
  obtain ⟨G', h', _⟩ := covered_loc hset' hr' hI' (by rw [hd]; exact hc) hu' (by rw [hd]; exact hsv')
  rw [hd] at h'
  exact same_runs hc h h' ((h.sim.compl.1).2 hs) ((h'.sim.compl.1).2 hs') hv hv' ho

/-! ### C07 -/

/-- C07: the activity of a task without loop and retry has been evaluated at most once, at any time of any execution.

Partial: see `C06_executed_partial`; with an unsafe order of links it is false (`C07_negation`). -/
theorem C07_at_most_once_partial {env : Env} (hset : SettingsOk env) {e : Eng} (hr : Reachable env e) {i : Nat} {I : Inst}
    (hI : e.insts[i]? = some I) (hc : Covered I.defn.main) (hu : Undisturbed I) (hsv : Leaf I.defn.main ∨ Served e i) {td : TaskDef} (ht : td ∈ I.defn.main.tasks)
    (hk : td.kind = .basic) (hn : td.retry = false) : (evalsOf e i ⟨false, td.id⟩).length ≤ 1 := by
  obtain ⟨G, h, _⟩ := covered_loc hset hr hI hc hu hsv
  have h1 := (h.inv.ex td.id ⟨td, ht, rfl, hk, hn⟩).1
  rw [← h.sim.ex, List.countP_eq_length_filter] at h1
  unfold evalsOf
  rw [hI]
  dsimp only
  refine Nat.le_trans (Nat.le_of_eq ?_) h1
  congr 1

/-- C07: every link is decided once: no two different decisions about the same link are ever recorded. -/
theorem C07_one_decision_partial {env : Env} (hset : SettingsOk env) {e : Eng} (hr : Reachable env e) {i : Nat} {I : Inst}
    (hI : e.insts[i]? = some I) (hc : Covered I.defn.main) (hu : Undisturbed I) (hsv : Leaf I.defn.main ∨ Served e i) {k : LinkId} {s s' : LinkStatus}
    (h1 : .linkStatus k s ∈ I.trace) (h2 : .linkStatus k s' ∈ I.trace) : s = s' := by
  obtain ⟨G, h, _⟩ := covered_loc hset hr hI hc hu hsv
  rw [((h.sim.dec k s).1 h1).1, ((h.sim.dec k s').1 h2).1]

/-! ### C08 -/

/-- C08: a flow with at least one task never stays active with nothing left to execute: if control has left the flow
instance, none of its tasks is in the work queue and none waits for an asynchronous activity, it is completed, and all its
tasks are finished.

Partial: see `C06_executed_partial`; with an unsafe order of links it is false (`C08_negation`), and likewise with failing
settings (`C08_negation_settings`). -/
theorem C08_not_stuck_partial {env : Env} (hset : SettingsOk env) {e : Eng} (hr : Reachable env e) {i : Nat} {I : Inst}
    (hI : e.insts[i]? = some I) (hc : Covered I.defn.main) (hu : Undisturbed I) (hsv : Leaf I.defn.main ∨ Served e i) (hne : I.defn.main.tasks ≠ [])
    (hs : e.stack = [] ∨ e.cur ≠ i) (hq : ∀ w ∈ e.queue, w.inst ≠ i) (hw : ∀ t, ¬ HasStatus I t .waiting) :
    I.status = .completed ∧ ∀ t ∈ I.defn.main.tasks, Finished I t.id := by
  obtain ⟨G, h, hfr⟩ := covered_loc hset hr hI hc hu hsv
  have hstk : G.stk = [] := by
    rcases hs with hs | hs
    · rw [hs, ite_self] at hfr; exact hfr.nil_iff
    · rw [if_neg hs] at hfr; exact hfr.nil_iff
  have hfin := h.inv.quiet hc.wf hc.acyclic hstk fun t => ⟨h.no_items hq t, fun hx => hw t ((h.hasStatus (s := .waiting) (fun hc => nomatch hc)).2 hx)⟩
  exact ⟨(h.sim.compl.1).1 (h.inv.comp1 hfin hne), fun t ht => (h.finished _).2 (hfin t ht)⟩

/-- C08: a task that calls a subflow does not wait in vain: if control has left the flow instance, none of its tasks is in the
work queue, none waits for an asynchronous activity and all subflows it called have reported their end, it is completed, and
all its tasks are finished.

Partial: as `C08_not_stuck_partial`; moreover no subflow was given to its error handler, because the end of such a subflow
need not be reported to the task that called it. -/
theorem C08_not_stuck_subflows_partial {env : Env} (hset : SettingsOk env) {e : Eng} (hr : Reachable env e) {i : Nat} {I : Inst}
    (hI : e.insts[i]? = some I) (hc : Covered I.defn.main) (hu : Undisturbed I) (hsv : Served e i) (hcalm : Calmed e i)
    (hne : I.defn.main.tasks ≠ []) (hs : e.stack = [] ∨ e.cur ≠ i) (hq : ∀ w ∈ e.queue, w.inst ≠ i)
    (hl : ∀ J ∈ e.insts, ∀ o, J.host = some (i, o) → endings J ≠ 0)
    (hw : ∀ t ∈ I.defn.main.tasks, (∀ uri, t.act ≠ .subflow uri) → ¬ HasStatus I t.id .waiting) :
    I.status = .completed ∧ ∀ t ∈ I.defn.main.tasks, Finished I t.id := by
  obtain ⟨G, h, hfr⟩ := covered_loc hset hr hI hc hu (Or.inr hsv)
  refine C08_not_stuck_partial hset hr hI hc hu (Or.inr hsv) hne hs hq fun t ht => ?_
  have hst := (h.hasStatus (s := .waiting) (fun hc => nomatch hc)).1 ht
  obtain ⟨td, h1, h2⟩ := h.inv.dom t (by rw [hst]; exact fun hc => nomatch hc)
  by_cases hsub : td.act.sub? = none
  · exact hw td h1 (fun uri ha => by rw [ha] at hsub; cases hsub) (by rw [h2]; exact ht)
  · have h' : IS I.defn.main (Single I.defn.main) (Fact env I.defn.main i) (Waits I.defn.main True) I (loadOf e i) G :=
      h.mono fun u n hw => ⟨hw.1, hw.2.1, fun _ => hw.2.2 hcalm⟩
    exact h'.no_subs hq hl ⟨td, h1, h2, hsub⟩ hst

/-- C08: every execution of a top-level flow comes to an end, whatever the order in which work items are taken: after more
than `T * (L + 4)` steps, where `T` is the number of tasks and `L` the number of links, not counting the rounds of loops,
the flow is completed, all its tasks are finished and nothing is left to do.

Partial: see `C06_executed_partial`; if an activity waits for something outside of the flow, the flow comes to rest with this
task waiting. -/
theorem C08_finishes_partial {env : Env} (hset : SettingsOk env) {d : Def} (hc : Covered d.main) (hlf : Leaf d.main) (hne : d.main.tasks ≠ [])
    (id uri : String) (ins : AMap String Val) {n : Nat}
    (hn : d.main.tasks.length * (d.main.links.length + 4) + loopRounds env (Eng.init env id uri d ins) n < n) {I : Inst}
    (hI : (Eng.run env (Eng.init env id uri d ins) n).insts[0]? = some I) (hu : Undisturbed I) (hw : ∀ t, ¬ HasStatus I t .waiting) :
    I.status = .completed ∧ (∀ t ∈ d.main.tasks, Finished I t.id) ∧
      (Eng.run env (Eng.init env id uri d ins) n).queue = [] ∧ (Eng.run env (Eng.init env id uri d ins) n).stack = [] :=
  at_rest hc hne id uri ins (TInv.run hset hc hlf id uri ins (b := true) (fun hc => nomatch hc) n) hn hI hu hw

/-- C08: without loops, the number of steps depends on the size of the flow definition only.

Partial: see `C08_finishes_partial`. -/
theorem C08_finishes_no_loops_partial {env : Env} (hset : SettingsOk env) {d : Def} (hc : Covered d.main) (hlf : Leaf d.main) (hne : d.main.tasks ≠ [])
    (hb : ∀ t ∈ d.main.tasks, t.kind = .basic) (id uri : String) (ins : AMap String Val) {n : Nat}
    (hn : d.main.tasks.length * (d.main.links.length + 4) < n) {I : Inst}
    (hI : (Eng.run env (Eng.init env id uri d ins) n).insts[0]? = some I) (hu : Undisturbed I) (hw : ∀ t, ¬ HasStatus I t .waiting) :
    I.status = .completed ∧ (∀ t ∈ d.main.tasks, Finished I t.id) ∧
      (Eng.run env (Eng.init env id uri d ins) n).queue = [] ∧ (Eng.run env (Eng.init env id uri d ins) n).stack = [] :=
  at_rest hc hne id uri ins (TInv.run hset hc hlf id uri ins (b := false) (fun _ => hb) n) hn hI hu hw

/-! ### C09 -/

/-- C09: in a flow that is reported completed every task that the graph and the followed links require has been executed and
is finished; no task is ready or waits, and nothing of it is left in the work queue.

Partial: see `C06_executed_partial`. -/
theorem C09_not_premature_partial {env : Env} (hset : SettingsOk env) {e : Eng} (hr : Reachable env e) {i : Nat} {I : Inst}
    (hI : e.insts[i]? = some I) (hc : Covered I.defn.main) (hu : Undisturbed I) (hsv : Leaf I.defn.main ∨ Served e i) (hs : I.status = .completed) :
    (∀ t, Runs I.defn.main (Followed I.trace) t → Executed I.trace t ∧ Finished I t) ∧
      (∀ t, ¬ HasStatus I t .ready ∧ ¬ HasStatus I t .waiting) ∧ ∀ w ∈ e.queue, w.inst ≠ i := by
  obtain ⟨G, h, _⟩ := covered_loc hset hr hI hc hu hsv
  have hcomp := (h.sim.compl.1).2 hs
  have hno : ∀ t, G.st t ≠ .ready ∧ G.st t ≠ .waiting := by
    intro t
    rcases (h.inv.comp2 hcomp).1 t with ho | ho
    · rcases open_iff.1 ho with hx | hx <;> rw [hx] <;> exact ⟨(fun hc => nomatch hc), (fun hc => nomatch hc)⟩
    · rcases fin_iff.1 ho with hx | hx | hx <;> rw [hx] <;> exact ⟨(fun hc => nomatch hc), (fun hc => nomatch hc)⟩
  refine ⟨fun t ht => ?_, fun t => ⟨fun hx => ?_, fun hx => ?_⟩, h.items hno⟩
  · obtain ⟨h1, h2⟩ := h.inv.completed hcomp ((h.runs_congr t).1 ht)
    exact ⟨(h.executed t).2 ⟨Fin.not_open h1, h2⟩, (h.finished t).2 h1⟩
  · exact (hno t).1 ((h.hasStatus (s := .ready) (fun hc => nomatch hc)).1 hx)
  · exact (hno t).2 ((h.hasStatus (s := .waiting) (fun hc => nomatch hc)).1 hx)

/-! ### Concrete cases -/

namespace GraphCase

/-- An expression link. -/
def ex (n : Nat) (a b : TaskId) : LinkDef := ⟨n, a, b, .expression, ""⟩

/-- All activities succeed; the expressions of the given links are false. -/
def falseOn (ls : List Nat) : Env := tableEnv (fun _ => {}) (fun l => .ok (!(ls.contains l)))

theorem path_rank {g : Graph} {rank : TaskId → Nat} (hr : ∀ l ∈ g.links, rank l.src < rank l.dst) {a c : TaskId} (h : Path g a c) :
    a = c ∨ rank a < rank c := by
  induction h with
  | refl a => exact Or.inl rfl
  | step hl _ ih =>
    right
    have := hr _ hl
    rcases ih with rfl | ih
    · exact this
    · omega

theorem pairwise_short {α : Type} {R : α → α → Prop} : ∀ ls : List α, ls.length ≤ 1 → ls.Pairwise R
  | [], _ => .nil
  | [_], _ => List.pairwise_singleton ..
  | _ :: _ :: _, h => absurd h (by simp)

/-- A splits into B and C by expressions, which join in D; moreover A leads to E, which precedes F, as does A directly. -/
def fork : Def :=
  { name := "f", main := ⟨[tk "A", tk "B", tk "C", tk "D", tk "E", tk "F"],
      [ex 0 "A" "B", ex 1 "A" "C", ⟨2, "B", "D", .dependency, ""⟩, ⟨3, "C", "D", .dependency, ""⟩, ⟨4, "A", "E", .dependency, ""⟩,
        ⟨5, "E", "F", .dependency, ""⟩, ⟨6, "A", "F", .dependency, ""⟩]⟩ }

def forkRank (t : TaskId) : Nat := if t = "A" then 0 else if t = "D" ∨ t = "F" then 2 else 1

theorem fork_rank : ∀ l ∈ fork.main.links, forkRank l.src < forkRank l.dst := by decide

theorem fork_leaf : Leaf fork.main := by
  intro t ht uri
  simp only [fork, List.mem_cons, List.not_mem_nil, or_false] at ht
  rcases ht with rfl | rfl | rfl | rfl | rfl | rfl <;> exact fun h => nomatch h

theorem fork_covered : Covered fork.main where
  wf := ⟨by decide, by decide, by decide, by decide⟩
  acyclic := ⟨forkRank, fork_rank⟩
  order := by
    intro t
    by_cases ha : t = "A"
    · subst ha
      have hp : ∀ {a c}, Path fork.main a c → forkRank c ≤ forkRank a → a = c := by
        intro a c h hle
        rcases path_rank fork_rank h with h | h
        · exact h
        · omega
      have hf : fork.main.links.filter (fun l => l.src = "A") = [ex 0 "A" "B", ex 1 "A" "C", ⟨4, "A", "E", .dependency, ""⟩, ⟨6, "A", "F", .dependency, ""⟩] := by decide
      rw [hf]
      have hst : IsStart fork.main "A" := by unfold IsStart; decide
      have her : ∀ l ∈ fork.main.links, l.src = "A" → l.type ≠ .error := by decide
      have no : ∀ {a c : TaskId} {P : Prop}, a ≠ c → forkRank c ≤ forkRank a → Path fork.main a c → P := fun h1 h2 h3 => absurd (hp h3 h2) h1
      simp only [List.pairwise_cons, List.mem_cons, List.not_mem_nil, or_false, forall_eq_or_imp, forall_eq, List.Pairwise.nil, and_true, ex]
      refine ⟨⟨⟨by decide, no (by decide) (by decide)⟩, ⟨by decide, no (by decide) (by decide)⟩, ⟨by decide, fun _ => ⟨hst, her, Or.inr (Or.inl rfl)⟩⟩⟩,
        ⟨⟨by decide, no (by decide) (by decide)⟩, ⟨by decide, fun _ => ⟨hst, her, Or.inr (Or.inl rfl)⟩⟩⟩, ⟨by decide, fun _ => ⟨hst, her, Or.inl (Or.inl rfl)⟩⟩, ?_⟩
      exact fun _ h => nomatch h
    · have hl : (fork.main.links.filter (fun l => l.src = t)).length ≤ 1 := by
        have hc : ∀ s : TaskId, s ≠ "A" → s = "B" ∨ s = "C" ∨ s = "E" ∨ (s ≠ "B" ∧ s ≠ "C" ∧ s ≠ "E") := by
          intro s _
          by_cases h1 : s = "B"
          · exact Or.inl h1
          · by_cases h2 : s = "C"
            · exact Or.inr (Or.inl h2)
            · by_cases h3 : s = "E"
              · exact Or.inr (Or.inr (Or.inl h3))
              · exact Or.inr (Or.inr (Or.inr ⟨h1, h2, h3⟩))
        rcases hc t ha with rfl | rfl | rfl | ⟨h1, h2, h3⟩
        · decide
        · decide
        · decide
        · simp [fork, ex, Ne.symm ha, Ne.symm h1, Ne.symm h2, Ne.symm h3]
      exact pairwise_short _ hl
  sub := fun t ht uri h => absurd h (fork_leaf t ht uri)

/-- The state after 40 steps, with the expression of the link from A to C false. -/
def forkEnd : Eng := Eng.run (falseOn [1]) (Eng.init (falseOn [1]) "1" "u" fork []) 40

theorem settings_tableEnv (act : TaskId → ActOut) (link : LinkId → ExprOut) : SettingsOk (tableEnv act link) := fun _ _ _ => rfl

/-- The same flow with the newest work item taken first. -/
def lastFirst (ls : List Nat) : Env := { falseOn ls with pick := fun e => e.queue.length - 1 }

def forkEnd' : Eng := Eng.run (lastFirst [1]) (Eng.init (lastFirst [1]) "1" "u" fork []) 40

def tasksEvaluated (e : Eng) : List TaskId := (e.insts.map (fun I => I.trace.reverse.filterMap evalTask)).flatten
where evalTask : Ev → Option TaskId
  | .evalAct _ t => some t.id
  | _ => none

/-- The hypotheses of the theorems about completed flows hold for two executions of this flow with different schedules. -/
example : SettingsOk (falseOn [1]) ∧ Reachable (falseOn [1]) forkEnd ∧ Reachable (lastFirst [1]) forkEnd' ∧ Covered fork.main ∧ Leaf fork.main ∧
    (∃ I, forkEnd.insts[0]? = some I ∧ I.defn.main = fork.main ∧ Undisturbed I ∧ I.status = .completed) ∧
    (∃ I, forkEnd'.insts[0]? = some I ∧ I.defn.main = fork.main ∧ Undisturbed I ∧ I.status = .completed) ∧
    tasksEvaluated forkEnd = ["A", "E", "B", "F", "D"] ∧ tasksEvaluated forkEnd' = ["A", "B", "D", "E", "F"] := by
  refine ⟨settings_tableEnv _ _, ⟨_, _, _, _, _, rfl⟩, ⟨_, _, _, _, _, rfl⟩, fork_covered, fork_leaf, ?_, ?_, by decide, by decide⟩
  · obtain ⟨I, hI⟩ := root_exists (env := falseOn [1]) (id := "1") (uri := "u") (d := fork) (ins := []) 40
    have h1 : (forkEnd.insts[0]?.map (fun I => (I.handling, I.force, I.status))) = some (false, false, .completed) := by decide
    unfold forkEnd at h1
    rw [hI] at h1
    simp only [Option.map_some, Option.some.injEq, Prod.mk.injEq] at h1
    exact ⟨I, hI, by rw [root_defn hI], ⟨h1.1, h1.2.1⟩, h1.2.2⟩
  · obtain ⟨I, hI⟩ := root_exists (env := lastFirst [1]) (id := "1") (uri := "u") (d := fork) (ins := []) 40
    have h1 : (forkEnd'.insts[0]?.map (fun I => (I.handling, I.force, I.status))) = some (false, false, .completed) := by decide
    unfold forkEnd' at h1
    rw [hI] at h1
    simp only [Option.map_some, Option.some.injEq, Prod.mk.injEq] at h1
    exact ⟨I, hI, by rw [root_defn hI], ⟨h1.1, h1.2.1⟩, h1.2.2⟩

/-- The hypotheses of the theorems about skipped tasks hold in the first of these executions: C was skipped, D and E were
not. -/
example : ∃ I, forkEnd.insts[0]? = some I ∧ .taskStatus 4 ⟨false, "C"⟩ .skipped ∈ I.trace ∧ forkEnd.stack = [] ∧ forkEnd.queue = [] ∧
    I.objs.map (fun ob => (ob.task.id, ob.status)) =
      [("A", .done), ("E", .done), ("F", .done), ("B", .done), ("C", .skipped), ("D", .done)] := by
  obtain ⟨I, hI⟩ := root_exists (env := falseOn [1]) (id := "1") (uri := "u") (d := fork) (ins := []) 40
  have h1 : (forkEnd.insts[0]?.map (fun I => (decide (.taskStatus 4 ⟨false, "C"⟩ .skipped ∈ I.trace), I.objs.map (fun ob => (ob.task.id, ob.status))))) =
    some (true, [("A", .done), ("E", .done), ("F", .done), ("B", .done), ("C", .skipped), ("D", .done)]) := by decide
  unfold forkEnd at h1
  rw [hI] at h1
  simp only [Option.map_some, Option.some.injEq, Prod.mk.injEq] at h1
  exact ⟨I, hI, of_decide_eq_true h1.1, by decide, by decide, h1.2⟩

/-- The hypotheses of the theorems about the end of executions hold for this flow after 67 steps. -/
example : fork.main.tasks ≠ [] ∧ (∀ t ∈ fork.main.tasks, t.kind = .basic) ∧ fork.main.tasks.length * (fork.main.links.length + 4) < 67 ∧
    loopRounds (falseOn [1]) (Eng.init (falseOn [1]) "1" "u" fork []) 67 = 0 ∧
    ∃ I, (Eng.run (falseOn [1]) (Eng.init (falseOn [1]) "1" "u" fork []) 67).insts[0]? = some I ∧ Undisturbed I ∧ ∀ t, ¬ HasStatus I t .waiting := by
  refine ⟨by decide, by decide, by decide, by decide +kernel, ?_⟩
  obtain ⟨I, hI⟩ := root_exists (env := falseOn [1]) (id := "1") (uri := "u") (d := fork) (ins := []) 67
  have h1 : ((Eng.run (falseOn [1]) (Eng.init (falseOn [1]) "1" "u" fork []) 67).insts[0]?.map (fun I => (I.handling, I.force, I.objs.all (fun o => decide (o.status ≠ .waiting))))) =
    some (false, false, true) := by decide +kernel
  rw [hI] at h1
  simp only [Option.map_some, Option.some.injEq, Prod.mk.injEq] at h1
  refine ⟨I, hI, ⟨h1.1, h1.2.1⟩, ?_⟩
  rintro t ⟨ob, hm, _, hs⟩
  exact of_decide_eq_true (List.all_eq_true.1 h1.2.2 ob hm) hs

/-- A calls the subflow "s"; then B, which calls it once more, and C are executed. -/
def caller : Def :=
  { name := "f", main := ⟨[{ tk "A" with act := .subflow "s" }, { tk "B" with act := .subflow "s", retry := true }, tk "C"],
      [⟨0, "A", "B", .dependency, ""⟩, ⟨1, "B", "C", .dependency, ""⟩]⟩ }
/-- The subflow "s": X leads to Y. -/
def callerEnv : Env :=
  { plainEnv with defs := fun u => if u = "s" then .ok (some { name := "s", main := ⟨[tk "X", tk "Y"], [⟨0, "X", "Y", .dependency, ""⟩]⟩ }) else .ok none }

theorem caller_covered : Covered caller.main where
  wf := ⟨by decide, by decide, by decide, by decide⟩
  acyclic := ⟨fun t => if t = "A" then 0 else if t = "B" then 1 else 2, by decide⟩
  order := by
    intro t
    refine pairwise_short _ ?_
    by_cases ha : t = "A"
    · subst ha; decide
    · by_cases hb : t = "B"
      · subst hb; decide
      · simp [caller, Ne.symm ha, Ne.symm hb]
  sub := by
    intro t ht uri
    simp only [caller, List.mem_cons, List.not_mem_nil, or_false] at ht
    rcases ht with rfl | rfl | rfl <;> exact fun _ => rfl

/-- What is said about the instances in the following cases. -/
def summary (I : Inst) : Option (Nat × Nat) × Bool × Bool × Nat × Bool × FlowStatus :=
  (I.host, I.handling, I.force, endings I, decide (.ehStart ∈ I.trace), I.status)

theorem served_of {e : Eng} {i : Nat}
    (h : ∀ x ∈ e.insts.map summary, (x.1.map (·.1) = some i → x.2.2.2.1 ≤ 1 ∧ x.2.1 = false) ∧ x.2.2.2.2.1 = false) : Served e i ∧ Calmed e i := by
  refine ⟨⟨fun J hJ o ho => ?_, fun _ J hJ hm => ?_⟩, fun J hJ o ho => ?_⟩
  · exact ((h _ (List.mem_map_of_mem hJ)).1 (by show (J.host).map _ = _; rw [ho]; rfl)).1
  · exact of_decide_eq_false (h _ (List.mem_map_of_mem hJ)).2 hm
  · exact ((h _ (List.mem_map_of_mem hJ)).1 (by show (J.host).map _ = _; rw [ho]; rfl)).2

/-- The hypotheses of the theorems hold for a flow that calls two subflows, which have ended, at its end and, except for the
status, while the second subflow is running. -/
example : SettingsOk callerEnv ∧ Covered caller.main ∧ (∀ n, Reachable callerEnv (Eng.run callerEnv (Eng.init callerEnv "1" "u" caller []) n)) ∧
    (∀ n, n = 14 ∨ n = 40 → Served (Eng.run callerEnv (Eng.init callerEnv "1" "u" caller []) n) 0 ∧
      Calmed (Eng.run callerEnv (Eng.init callerEnv "1" "u" caller []) n) 0) ∧
    (Eng.run callerEnv (Eng.init callerEnv "1" "u" caller []) 14).insts.map summary =
      [(none, false, false, 0, false, .active), (some (0, 0), false, false, 1, false, .completed), (some (0, 1), false, false, 0, false, .active)] ∧
    (Eng.run callerEnv (Eng.init callerEnv "1" "u" caller []) 40).insts.map summary =
      [(none, false, false, 1, false, .completed), (some (0, 0), false, false, 1, false, .completed), (some (0, 1), false, false, 1, false, .completed)] ∧
    (Eng.run callerEnv (Eng.init callerEnv "1" "u" caller []) 40).queue = [] ∧ (Eng.run callerEnv (Eng.init callerEnv "1" "u" caller []) 40).stack = [] := by
  have h1 : (Eng.run callerEnv (Eng.init callerEnv "1" "u" caller []) 14).insts.map summary =
      [(none, false, false, 0, false, .active), (some (0, 0), false, false, 1, false, .completed), (some (0, 1), false, false, 0, false, .active)] := by decide +kernel
  have h2 : (Eng.run callerEnv (Eng.init callerEnv "1" "u" caller []) 40).insts.map summary =
      [(none, false, false, 1, false, .completed), (some (0, 0), false, false, 1, false, .completed), (some (0, 1), false, false, 1, false, .completed)] := by decide +kernel
  refine ⟨fun _ _ _ => rfl, caller_covered, fun n => ⟨_, _, _, _, _, rfl⟩, ?_, h1, h2, by decide +kernel, by decide +kernel⟩
  rintro n (rfl | rfl)
  · exact served_of (by rw [h1]; decide)
  · exact served_of (by rw [h2]; decide)

/-- A flow with one task, which loops as long as its condition is true. -/
def rounds : Def := { name := "f", main := ⟨[{ tk "A" with kind := .doWhile, loop := some { hasCondition := true } }], []⟩ }
/-- The condition is true twice. -/
def roundsEnv : Env := { plainEnv with cond := fun e i o => .ok (decide (((e.obj? i o).bind (·.dwIndex)).getD 0 < 2)) }

-- two rounds are not the last one; the flow is completed after more than 4 + 2 steps
example : loopRounds roundsEnv (Eng.init roundsEnv "1" "u" rounds []) 7 = 2 ∧ rounds.main.tasks.length * (rounds.main.links.length + 4) = 4 ∧
    flowStatus (Eng.run roundsEnv (Eng.init roundsEnv "1" "u" rounds []) 7) 0 = some .completed := by decide +kernel

/-- A leads to C and then to B by expressions; C leads to B, as does D; B has an error link to E. -/
def crossing : Def :=
  { name := "f", main := ⟨[tk "D", tk "A", tk "B", tk "C", tk "E"],
      [ex 1 "A" "C", ex 2 "A" "B", ⟨3, "C", "B", .dependency, ""⟩, ⟨4, "D", "B", .dependency, ""⟩, ⟨5, "B", "E", .error, ""⟩]⟩ }

/-- Both expressions are false and B fails. -/
def crossingEnv : Env := tableEnv (fun t => if t = "B" then { res := .err (.plain "boom") } else {}) (fun l => .ok (!([1, 2].contains l)))

/-- A leads to C and then to B by expressions, C leads to B, and D is on its own. -/
def loose : Def :=
  { name := "f", main := ⟨[tk "A", tk "B", tk "C", tk "D"], [ex 1 "A" "C", ex 2 "A" "B", ⟨3, "C", "B", .dependency, ""⟩]⟩ }

/-- The flow `crossing` with a further task F that follows B. -/
def revived : Def :=
  { crossing with main := ⟨crossing.main.tasks ++ [tk "F"], crossing.main.links ++ [⟨6, "B", "F", .dependency, ""⟩]⟩ }

/-- B fails when it is evaluated for the first time. -/
def failsFirst (e : Eng) (t : TaskId) : ActOut :=
  if t = "B" ∧ (evalsOf e 0 ⟨false, "B"⟩).length ≤ 1 then { res := .err (.plain "boom") } else {}

/-- As in `crossingEnv`, but B succeeds when it is evaluated once more. -/
def revivedEnv : Env := { crossingEnv with act := fun e i o => failsFirst e (taskOf e i o) }

def looseRank (t : TaskId) : Nat := if t = "A" ∨ t = "D" then 0 else if t = "C" then 1 else if t = "B" then 2 else 3

end GraphCase

open GraphCase

/-- C02 is false in general: in this acyclic flow the task F is skipped because B failed, and it is executed afterwards,
because B is evaluated twice (see `C07_negation`) and succeeds the second time. -/
theorem C02_negation : WellFormed revived.main ∧ Acyclic revived.main ∧
    ∃ I, (Eng.run revivedEnv (Eng.init revivedEnv "1" "u" revived []) 60).insts[0]? = some I ∧
      .taskStatus 5 ⟨false, "F"⟩ .skipped ∈ I.trace ∧ .evalAct 6 ⟨false, "F"⟩ ∈ I.trace := by
  refine ⟨⟨by decide, by decide, by decide, by decide⟩, ⟨looseRank, by decide⟩, ?_⟩
  obtain ⟨I, hI⟩ := root_exists (env := revivedEnv) (id := "1") (uri := "u") (d := revived) (ins := []) 60
  have h1 : ((Eng.run revivedEnv (Eng.init revivedEnv "1" "u" revived []) 60).insts[0]?.map fun I =>
    (decide (.taskStatus 5 ⟨false, "F"⟩ .skipped ∈ I.trace), decide (.evalAct 6 ⟨false, "F"⟩ ∈ I.trace))) = some (true, true) := by decide +kernel
  rw [hI] at h1
  simp only [Option.map_some, Option.some.injEq, Prod.mk.injEq] at h1
  exact ⟨I, hI, of_decide_eq_true h1.1, of_decide_eq_true h1.2⟩

/-- Two tasks without links. -/
def twoApart : Def := { name := "f", main := ⟨[tk "A", tk "B"], []⟩ }

/-- Task A fails. -/
def aFails : Env := tableEnv (fun t => if t = "A" then { res := .err (.plain "boom") } else {}) (fun _ => .ok true)

/-- The same outcomes, but the newest work item is taken first. -/
def newestFirst : Env := { aFails with pick := fun e => e.queue.length - 1 }

/-- C06 is false in general: in this acyclic flow, with the same outcomes, the task B, which has no incoming link, is executed
or not depending on whether it is taken from the work queue before the task that fails. -/
theorem C06_negation : WellFormed twoApart.main ∧ Acyclic twoApart.main ∧
    (∀ n, evalsOf (Eng.run aFails (Eng.init aFails "1" "u" twoApart []) (4 + n)) 0 ⟨false, "B"⟩ = []) ∧
    (evalsOf (Eng.run newestFirst (Eng.init newestFirst "1" "u" twoApart []) 4) 0 ⟨false, "B"⟩).length = 1 := by
  refine ⟨⟨by decide, by decide, by decide, by decide⟩, ⟨fun _ => 0, by decide⟩, fun n => ?_, by decide⟩
  have hover : ∀ n, (Eng.run aFails (Eng.init aFails "1" "u" twoApart []) (4 + n)).insts =
      (Eng.run aFails (Eng.init aFails "1" "u" twoApart []) 4).insts := by
    intro n
    rw [Eng.run_add]
    exact (over_forever (by decide) (by decide) (by decide) n).1
  unfold evalsOf
  rw [hover n]
  decide

/-- A fails; beside it B repeats until its condition is false, and C follows it; there is an error handler. -/
def unfinished : Def :=
  { name := "f", main := ⟨[tk "A", { tk "B" with kind := .doWhile, loop := some { hasCondition := true } }, tk "C"], deps 0 [("B", "C")]⟩
    eh := some ⟨[tk "H"], []⟩ }

/-- The condition is true twice. -/
def unfinishedEnv : Env := { aFails with cond := roundsEnv.cond }

/-- C09 is false in general: the error handler completes this acyclic flow, nobody returned explicitly, and the oldest work item
is always taken first; but at that moment B, one iteration of which was executed, is pending in the work queue, and its successor
C has not been executed. -/
theorem C09_negation : WellFormed unfinished.main ∧ Acyclic unfinished.main ∧
    flowStatus (Eng.run unfinishedEnv (Eng.init unfinishedEnv "1" "u" unfinished []) 5) 0 = some .completed ∧
    ((Eng.run unfinishedEnv (Eng.init unfinishedEnv "1" "u" unfinished []) 5).insts[0]?.map (·.force)) = some false ∧
    (Eng.run unfinishedEnv (Eng.init unfinishedEnv "1" "u" unfinished []) 5).queue.map
      (fun w => taskOf (Eng.run unfinishedEnv (Eng.init unfinishedEnv "1" "u" unfinished []) 5) w.inst w.obj) = ["B"] ∧
    (evalsOf (Eng.run unfinishedEnv (Eng.init unfinishedEnv "1" "u" unfinished []) 5) 0 ⟨false, "B"⟩).length = 1 ∧
    evalsOf (Eng.run unfinishedEnv (Eng.init unfinishedEnv "1" "u" unfinished []) 5) 0 ⟨false, "C"⟩ = [] := by
  refine ⟨⟨by decide, by decide, by decide, by decide⟩, ⟨fun t => if t = "C" then 1 else 0, by decide⟩, by decide, by decide, by decide,
    by decide, by decide⟩

/-- C07 is false in general: in this acyclic flow the task B, which neither loops nor retries, is evaluated twice. When A is
done, C is skipped and enters B, which becomes ready because D is done; then A enters B once more. The second work item
evaluates B again because it failed. -/
theorem C07_negation : WellFormed crossing.main ∧ Acyclic crossing.main ∧
    (∀ t ∈ crossing.main.tasks, t.kind = .basic ∧ t.retry = false) ∧
    (evalsOf (Eng.run crossingEnv (Eng.init crossingEnv "1" "u" crossing []) 40) 0 ⟨false, "B"⟩).length = 2 := by
  refine ⟨⟨by decide, by decide, by decide, by decide⟩, ⟨looseRank, by decide⟩, by decide, by decide⟩

/-- Task A calls the subflow "r"; an error link leads from A to B. -/
def rescued : Def :=
  { name := "f", main := ⟨[{ tk "A" with act := .subflow "r" }, tk "B", tk "C"],
      [⟨0, "A", "B", .error, ""⟩, ⟨1, "B", "C", .dependency, ""⟩]⟩ }
/-- The subflow "r": X fails, beside it Y and Z run one after the other. -/
def rescuedEnv : Env :=
  { tableEnv (fun t => if t = "X" then { res := .err (.plain "boom") } else {}) (fun _ => .ok true) with
    defs := fun u => if u = "r" then .ok (some { name := "s", main := ⟨[tk "X", tk "Y", tk "Z"], [⟨0, "Y", "Z", .dependency, ""⟩]⟩ })
      else .ok none }

/-- C07 is false also for flows with a safe order of links, if a subflow ends twice: when X fails, the subflow fails, A fails
and its error link leads to B; when Z is done, the same subflow completes and A is put into the queue again. Since A failed,
it is executed again and calls the subflow a second time. -/
theorem C07_negation_subflow : WellFormed rescued.main ∧ Acyclic rescued.main ∧ OrderSafe rescued.main ∧
    (∀ t ∈ rescued.main.tasks, t.kind = .basic ∧ t.retry = false) ∧
    (evalsOf (Eng.run rescuedEnv (Eng.init rescuedEnv "1" "u" rescued []) 17) 0 ⟨false, "A"⟩).length = 2 ∧
    (Eng.run rescuedEnv (Eng.init rescuedEnv "1" "u" rescued []) 17).insts.length = 3 := by
  refine ⟨⟨by decide, by decide, by decide, by decide⟩, ⟨fun t => if t = "A" then 0 else if t = "B" then 1 else 2, by decide⟩,
    fun t => ?_, by decide, by decide, by decide⟩
  by_cases ha : t = "A"
  · subst ha; exact List.pairwise_singleton ..
  · by_cases hb : t = "B"
    · subst hb; exact List.pairwise_singleton ..
    · have : rescued.main.links.filter (fun l => l.src = t) = [] := by
        simp [rescued, Ne.symm ha, Ne.symm hb]
      rw [this]; exact .nil

/-- C08 is false in general: this acyclic flow, in which all activities succeed, stays active for ever although nothing is
left to execute. When A is done, C is skipped, which skips B, and B is released; then A enters B once more, which creates a
new instance of B that waits for links that have been decided and removed. -/
theorem C08_negation : WellFormed loose.main ∧ Acyclic loose.main ∧
    ∀ n, flowStatus (Eng.run (falseOn [1, 2]) (Eng.init (falseOn [1, 2]) "1" "u" loose []) (40 + n)) 0 = some .active ∧
      (Eng.run (falseOn [1, 2]) (Eng.init (falseOn [1, 2]) "1" "u" loose []) (40 + n)).queue = [] := by
  refine ⟨⟨by decide, by decide, by decide, by decide⟩, ⟨looseRank, by decide⟩, fun n => ?_⟩
  rw [Eng.run_add]
  obtain ⟨h1, _, h3⟩ := idle_forever (env := falseOn [1, 2]) (e := Eng.run (falseOn [1, 2]) (Eng.init (falseOn [1, 2]) "1" "u" loose []) 40)
    (by decide) (by decide) (by decide) n
  refine ⟨?_, h3⟩
  unfold flowStatus
  rw [h1]
  decide

/-- C08 is false if the settings of a task cannot be computed: the task is ready but not in the work queue, and the flow
stays active for ever. -/
theorem C08_negation_settings :
    ∀ n, flowStatus (Eng.run { plainEnv with settingsOk := fun _ _ _ => false }
      (Eng.init { plainEnv with settingsOk := fun _ _ _ => false } "1" "u" fork []) n) 0 = some .active := by
  intro n
  obtain ⟨h1, _, _⟩ := idle_forever (env := { plainEnv with settingsOk := fun _ _ _ => false })
    (e := Eng.init { plainEnv with settingsOk := fun _ _ _ => false } "1" "u" fork []) (by decide) (by decide) (by decide) n
  unfold flowStatus
  rw [h1]
  decide

end Flow
