import Verif.Proofs.LiftRun
import Verif.Proofs.Panics
import Verif.Props.Graph
import Verif.Props.Results

/-
C104: an error handler is executed like a flow of its own.
-/

namespace Flow

open Spec Lift
open GraphCase (fork fork_covered fork_leaf tasksEvaluated settings_tableEnv)

variable {env : Env} {e : Eng} {I0 J : Inst} {g : Graph} {n : Nat}

/-- C104: what has happened since the error handler was started: the events before are kept. -/
theorem C104_since (h : HandlerRun env e I0 g n J) : ∃ tr, J.trace = tr ++ I0.trace := by
  have hI0 : (Eng.step env e).insts[0]? = some I0 := by rw [h.starts.after]; rfl
  obtain ⟨J', h1, h2⟩ := ext_run (step_reach h.reach) n 0 I0 hI0
  rw [h.inst] at h1; cases h1
  exact h2.trace

/-- No execution with conditions that are truth values, or cannot be computed, ever panics outside of an activity. -/
theorem C104_no_panic {e : Eng} (hr : Reachable env e) (hc : ∀ f i o m, env.cond f i o ≠ .panic m) : panics env e = false := by
  unfold panics
  cases hw : Spec.next env e with
  | none => rfl
  | some w =>
    rw [Option.any_some]
    cases ho : outcome env (afterPop env e w) w.inst w.obj with
    | none => rfl
    | some p =>
      obtain ⟨e', r⟩ := p
      cases r with
      | res _ => rfl
      | err _ => rfl
      | panic m =>
        cases hob : e.obj? w.inst w.obj with
        | none =>
          have : (afterPop env e w).obj? w.inst w.obj = none := hob
          unfold outcome at ho
          rw [this] at ho; cases ho
        | some ob =>
          obtain ⟨_, f, _, _, _, h1⟩ := Eng.panic_source hr (t := ob.task) (i := w.inst) (o := w.obj) ⟨⟨w, hw, rfl, rfl, ho⟩, by rw [hob]; rfl⟩
          exact absurd h1 (hc f _ _ m)

/-- So all theorems about error handlers hold, with this premise instead of the one about panics. -/
theorem C104_applies (hc : ∀ f i o m, env.cond f i o ≠ .panic m) (hr : Reachable env e) (hs : StartsHandler env e I0 g)
    (hJ : (Eng.run env (Eng.step env e) n).insts[0]? = some J) (hf : J.status ≠ .failed) (hx : J.force = false) : HandlerRun env e I0 g n J := by
  refine ⟨hr, hs, hJ, hf, hx, fun m _ => C104_no_panic ?_ hc⟩
  obtain ⟨id, uri, d, ins, k, hk⟩ := step_reach hr
  exact ⟨id, uri, d, ins, k + m, by rw [hk, Eng.run_add]⟩

theorem runs_of {g : Graph} {p q : LinkDef → Prop} (h : ∀ l, p l → q l) {t : TaskId} (hr : Runs g p t) : Runs g q t := by
  induction hr with
  | start ht hs => exact .start ht hs
  | link hl hf _ ih => exact .link hl (h _ hf) ih

theorem runs_iff {g : Graph} {p q : LinkDef → Prop} (h : ∀ l, p l ↔ q l) (t : TaskId) : Runs g p t ↔ Runs g q t :=
  ⟨runs_of fun l => (h l).1, runs_of fun l => (h l).2⟩

theorem runs_view {env' : Env} {f : Eng} {J' : Inst} (v : Likeness env e I0 J g env' f J') {tr : List Ev} (htr : J.trace = tr ++ I0.trace) (t : TaskId) :
    Runs g (Followed tr) t ↔ Runs g (Followed J'.trace) t := runs_iff (fun l => v.decided tr htr l.id .true) t

/-- C104: when a flow is completed that handled an error, exactly those tasks of the error handler have been executed that the graph
of the error handler requires, given the links that were followed: its start tasks, and the targets of followed links.

Partial: for an acyclic error handler with a safe order of links that calls no other flow; the flow is not called by another one and
none of its tasks was left in the work queue when the error occurred; no condition of a loop of the error handler makes the
engine panic (`C104_negation_panic`), and no activity ends the flow by an explicit return. -/
theorem C104_executed_partial (h : HandlerRun env e I0 g n J) (hset : SettingsOk env) (hd : LinksDistinct I0.defn) (hlf : Leaf g) (hc : Covered g)
    (hn : (startTasks g).length < n) (hs : J.status = .completed) {tr : List Ev} (htr : J.trace = tr ++ I0.trace) (t : TaskId) :
    ExecutedEh tr t ↔ Runs g (Followed tr) t := by
  obtain ⟨env', f, J', v⟩ := view h hset hd hlf hn
  rw [v.executed tr htr, runs_view v htr, ← v.graph]
  exact C06_executed_partial v.settings v.reach v.inst (by rw [v.graph]; exact hc) v.undisturbed (Or.inl (by rw [v.graph]; exact hlf))
    (v.status.trans hs) t

/-- C104: at no time has a task of the error handler been executed that its graph does not require.

Partial: see `C104_executed_partial`. -/
theorem C104_executed_only_partial (h : HandlerRun env e I0 g n J) (hset : SettingsOk env) (hd : LinksDistinct I0.defn) (hlf : Leaf g) (hc : Covered g)
    (hn : (startTasks g).length < n) {tr : List Ev} (htr : J.trace = tr ++ I0.trace) {t : TaskId} (ht : ExecutedEh tr t) :
    Runs g (Followed tr) t := by
  obtain ⟨env', f, J', v⟩ := view h hset hd hlf hn
  rw [runs_view v htr, ← v.graph]
  exact C06_executed_only_partial v.settings v.reach v.inst (by rw [v.graph]; exact hc) v.undisturbed (Or.inl (by rw [v.graph]; exact hlf))
    ((v.executed tr htr t).1 ht)

/-- C104: the activity of a task of the error handler without loop and retry has been evaluated at most once, at any time.

Partial: see `C104_executed_partial`. -/
theorem C104_at_most_once_partial (h : HandlerRun env e I0 g n J) (hset : SettingsOk env) (hd : LinksDistinct I0.defn) (hlf : Leaf g) (hc : Covered g)
    (hn : (startTasks g).length < n) {tr : List Ev} (htr : J.trace = tr ++ I0.trace) {td : TaskDef} (ht : td ∈ g.tasks)
    (hk : td.kind = .basic) (hr : td.retry = false) : (evalsEh tr td.id).length ≤ 1 := by
  obtain ⟨env', f, J', v⟩ := view h hset hd hlf hn
  rw [v.evals tr htr]
  exact C07_at_most_once_partial v.settings v.reach v.inst (by rw [v.graph]; exact hc) v.undisturbed (Or.inl (by rw [v.graph]; exact hlf))
    (by rw [v.graph]; exact ht) hk hr

/-- C104: every link of the error handler is decided once.

Partial: see `C104_executed_partial`. -/
theorem C104_one_decision_partial (h : HandlerRun env e I0 g n J) (hset : SettingsOk env) (hd : LinksDistinct I0.defn) (hlf : Leaf g) (hc : Covered g)
    (hn : (startTasks g).length < n) {tr : List Ev} (htr : J.trace = tr ++ I0.trace) {k : LinkId} {s s' : LinkStatus}
    (h1 : .linkStatus k s ∈ tr) (h2 : .linkStatus k s' ∈ tr) : s = s' := by
  obtain ⟨env', f, J', v⟩ := view h hset hd hlf hn
  exact C07_one_decision_partial v.settings v.reach v.inst (by rw [v.graph]; exact hc) v.undisturbed (Or.inl (by rw [v.graph]; exact hlf))
    ((v.decided tr htr k s).1 h1) ((v.decided tr htr k s').1 h2)

theorem finished_iff {env' : Env} {f : Eng} {J' : Inst} (v : Likeness env e I0 J g env' f J') (t : TaskId) : FinishedEh J t ↔ Finished J' t := by
  unfold FinishedEh Finished
  rw [v.has, v.has, v.has]

/-- C104: the flow never stays active with nothing left to execute in its error handler: if nothing is in the work queue, control is
between two steps and no task of the error handler waits for an asynchronous activity, the flow is completed, and all tasks of the
error handler are finished.

Partial: see `C104_executed_partial`. -/
theorem C104_not_stuck_partial (h : HandlerRun env e I0 g n J) (hset : SettingsOk env) (hd : LinksDistinct I0.defn) (hlf : Leaf g) (hc : Covered g)
    (hn : (startTasks g).length < n) (hne : g.tasks ≠ []) (hstk : (Eng.run env (Eng.step env e) n).stack = [])
    (hq : (Eng.run env (Eng.step env e) n).queue = []) (hw : ∀ t, ¬ HasStatusEh J t .waiting) :
    J.status = .completed ∧ ∀ t ∈ g.tasks, FinishedEh J t.id := by
  obtain ⟨env', f, J', v⟩ := view h hset hd hlf hn
  have h1 := C08_not_stuck_partial v.settings v.reach v.inst (by rw [v.graph]; exact hc) v.undisturbed (Or.inl (by rw [v.graph]; exact hlf))
    (by rw [v.graph]; exact hne) (Or.inl (v.stack.1 hstk)) (by rw [v.queue.1 hq]; exact fun w hw => nomatch hw) (fun t ht => hw t ((v.has t _).2 ht))
  rw [v.status, v.graph] at h1
  exact ⟨h1.1, fun t ht => (finished_iff v _).2 (h1.2 t ht)⟩

/-- C104: then the skipped tasks of the error handler are those that its graph does not require.

Partial: see `C104_executed_partial`. -/
theorem C104_skipped_iff_partial (h : HandlerRun env e I0 g n J) (hset : SettingsOk env) (hd : LinksDistinct I0.defn) (hlf : Leaf g) (hc : Covered g)
    (hn : (startTasks g).length < n) (hstk : (Eng.run env (Eng.step env e) n).stack = [])
    (hq : (Eng.run env (Eng.step env e) n).queue = []) (hw : ∀ t, ¬ HasStatusEh J t .waiting) {tr : List Ev} (htr : J.trace = tr ++ I0.trace)
    {td : TaskDef} (ht : td ∈ g.tasks) : HasStatusEh J td.id .skipped ↔ ¬ Runs g (Followed tr) td.id := by
  obtain ⟨env', f, J', v⟩ := view h hset hd hlf hn
  rw [v.has, runs_view v htr, ← v.graph]
  exact C02_skipped_iff_partial v.settings v.reach v.inst (by rw [v.graph]; exact hc) v.undisturbed (Or.inl (by rw [v.graph]; exact hlf))
    (Or.inl (v.stack.1 hstk)) (by rw [v.queue.1 hq]; exact fun w hw => nomatch hw) (fun t ht => hw t ((v.has t _).2 ht)) (by rw [v.graph]; exact ht)

/-- C104: a flow that handled an error is not completed prematurely: all tasks that the graph of the error handler requires have been
executed and are finished, none is ready or waits, and nothing is left in the work queue.

Partial: see `C104_executed_partial`. -/
theorem C104_not_premature_partial (h : HandlerRun env e I0 g n J) (hset : SettingsOk env) (hd : LinksDistinct I0.defn) (hlf : Leaf g) (hc : Covered g)
    (hn : (startTasks g).length < n) (hs : J.status = .completed) {tr : List Ev} (htr : J.trace = tr ++ I0.trace) :
    (∀ t, Runs g (Followed tr) t → ExecutedEh tr t ∧ FinishedEh J t) ∧ (∀ t, ¬ HasStatusEh J t .ready ∧ ¬ HasStatusEh J t .waiting) ∧
      (Eng.run env (Eng.step env e) n).queue = [] := by
  obtain ⟨env', f, J', v⟩ := view h hset hd hlf hn
  obtain ⟨h1, h2, h3⟩ := C09_not_premature_partial v.settings v.reach v.inst (by rw [v.graph]; exact hc) v.undisturbed (Or.inl (by rw [v.graph]; exact hlf))
    (v.status.trans hs)
  refine ⟨fun t ht => ?_, fun t => ?_, ?_⟩
  · have := h1 t (by rw [v.graph, ← runs_view v htr]; exact ht)
    exact ⟨(v.executed tr htr t).2 this.1, (finished_iff v t).2 this.2⟩
  · rw [v.has, v.has]; exact h2 t
  · rw [v.queue]
    exact List.eq_nil_iff_forall_not_mem.2 fun w hw => h3 w hw (v.items w hw)

/-- C104: the error handler ends: after a number of steps that depends on its size and on the number of repeated rounds of its loops only,
the flow is completed and all tasks of the error handler are finished, unless a task waits for an asynchronous activity.

Partial: see `C104_executed_partial`. -/
theorem C104_finishes_partial (h : HandlerRun env e I0 g n J) (hset : SettingsOk env) (hd : LinksDistinct I0.defn) (hlf : Leaf g) (hc : Covered g)
    (hne : g.tasks ≠ []) (hn : g.tasks.length * (g.links.length + 5) + 1 + loopRounds env (Eng.step env e) n < n) (hw : ∀ t, ¬ HasStatusEh J t .waiting) :
    J.status = .completed ∧ (∀ t ∈ g.tasks, FinishedEh J t.id) ∧
      (Eng.run env (Eng.step env e) n).queue = [] ∧ (Eng.run env (Eng.step env e) n).stack = [] := by
  obtain ⟨h1, h2, h3, h4, h5, _⟩ := starts_ok h hd hlf
  have hlen : (startTasks g).length ≤ g.tasks.length := List.length_filter_le ..
  have hmul : g.tasks.length * (g.links.length + 5) = g.tasks.length * (g.links.length + 4) + g.tasks.length := rfl
  obtain ⟨m, rfl⟩ : ∃ m, n = (startTasks g).length + 1 + m := ⟨n - ((startTasks g).length + 1), by omega⟩
  have hnf := not_failed h.inst h.fine
  have h6 := le_run h1 hset h2 h.starts.pending h3 h4 h5 m h.calm hnf
  have h7 := rounds_le h1 hset h2 h.starts.pending h3 h4 h5 m h.calm hnf
  obtain ⟨J', v⟩ := view_of hset h6 h.inst h.force ⟨_, _, _, _, m, rfl⟩ h2.objs
  dsimp only at h7
  have h8 := C08_finishes_partial v.settings (d := (Start.defn ⟨Eng.step env e, I0, g⟩)) hc hlf hne "" "" (encA I0.attrs) (n := m) (by
    show g.tasks.length * (g.links.length + 4) + loopRounds _ (own _ env) m < m
    omega) v.inst v.undisturbed (fun t ht => hw t ((v.has t _).2 ht))
  rw [v.status] at h8
  exact ⟨h8.1, fun t ht => (finished_iff v _).2 (h8.2.1 t ht), v.queue.2 h8.2.2.1, v.stack.2 h8.2.2.2⟩

/-- X fails; the error handler: A splits into B and C by expressions, which join in D; moreover A leads to E, which precedes F. -/
def mended : Def := { name := "f", main := ⟨[tk "X"], []⟩, eh := some fork.main }

theorem mended_distinct : LinksDistinct mended := by unfold LinksDistinct; decide

/-- X fails, and link 1 of the error handler (to C) is not followed. -/
def mendedEnv : Env := tableEnv (fun t => if t = "X" then { res := .err (.plain "boom") } else {}) (fun l => .ok (l != 1))

def mendedStart : Eng := Eng.init mendedEnv "1" "u" mended []

def mendedEnd : Eng := Eng.run mendedEnv (Eng.step mendedEnv mendedStart) 80

/-- The hypotheses hold, and the tasks that are required are executed: the error handler completes the flow. -/
example : ∃ I0 J, HandlerRun mendedEnv mendedStart I0 fork.main 80 J ∧ SettingsOk mendedEnv ∧ LinksDistinct I0.defn ∧ Leaf fork.main ∧ Covered fork.main ∧
    (startTasks fork.main).length < 80 ∧ J.status = .completed ∧ mendedEnd.stack = [] ∧ mendedEnd.queue = [] ∧
    fork.main.tasks.length * (fork.main.links.length + 5) + 1 + loopRounds mendedEnv (Eng.step mendedEnv mendedStart) 80 < 80 ∧
    tasksEvaluated mendedEnd = ["X", "A", "E", "B", "F", "D"] := by
  refine ⟨_, (mendedEnd.insts[0]?).get (by decide +kernel), ⟨⟨_, _, _, _, 0, rfl⟩, ⟨⟨_, rfl, rfl⟩, rfl, rfl, rfl, rfl⟩, (Option.some_get _).symm, ?_, ?_, ?_⟩,
    settings_tableEnv _ _, mended_distinct, fork_leaf, fork_covered, by decide, by decide +kernel, by decide +kernel, by decide +kernel, by decide +kernel,
    by decide +kernel⟩
  · decide +kernel
  · decide +kernel
  · decide +kernel

-- the hypothesis about conditions of `C104_applies` holds for this execution, whose other hypotheses are shown above
example : ∀ f i o m, mendedEnv.cond f i o ≠ .panic m := fun _ _ _ _ h => nomatch h

/-- X fails; the error handler has one task, which is repeated while a condition holds. -/
def panicky : Def :=
  { name := "f", main := ⟨[tk "X"], []⟩, eh := some ⟨[{ tk "H" with kind := .doWhile, loop := some { hasCondition := true } }], []⟩ }

theorem panicky_distinct : LinksDistinct panicky := by unfold LinksDistinct; decide

/-- X fails, and the value of the condition is no truth value. -/
def panickyEnv : Env :=
  { tableEnv (fun t => if t = "X" then { res := .err (.plain "boom") } else {}) (fun _ => .ok true) with
    cond := fun _ _ _ => .panic "interface conversion: interface {} is string, not bool" }

def panickyStart : Eng := Eng.init panickyEnv "1" "u" panicky []

theorem idle {env : Env} {e : Eng} (hs : e.stack = []) (hq : e.queue = []) (n : Nat) :
    (Eng.run env e n).insts = e.insts ∧ (Eng.run env e n).stack = [] ∧ (Eng.run env e n).queue = [] := by
  induction n with
  | zero => exact ⟨rfl, hs, hq⟩
  | succ n ih =>
    obtain ⟨h1, h2, h3⟩ := ih
    show (Eng.step env (Eng.run env e n)).insts = _ ∧ (Eng.step env (Eng.run env e n)).stack = _ ∧ (Eng.step env (Eng.run env e n)).queue = _
    unfold Eng.step
    rw [h2]
    dsimp only
    unfold Eng.doStep
    split
    · exact ⟨h1, h2, h3⟩
    · rw [h3]
      dsimp only
      split
      · exact ⟨h1, h2, rfl⟩
      · exact ⟨h1, h2, rfl⟩

/-- C104 fails if the condition of a loop of the error handler is no truth value: the flow stays active for ever, although nothing is left to execute and no
task waits. -/
theorem C104_negation_panic : ∃ env e I0 g n J, Reachable env e ∧ StartsHandler env e I0 g ∧ SettingsOk env ∧ LinksDistinct I0.defn ∧ Leaf g ∧ Covered g ∧
    g.tasks ≠ [] ∧ (Eng.run env (Eng.step env e) n).insts[0]? = some J ∧ J.force = false ∧ (∀ t, ¬ HasStatusEh J t .waiting) ∧
    (Eng.run env (Eng.step env e) n).stack = [] ∧ (Eng.run env (Eng.step env e) n).queue = [] ∧
    ∀ m, flowStatus (Eng.run env (Eng.step env e) (n + m)) 0 = some .active := by
  refine ⟨panickyEnv, panickyStart, _, ⟨[{ tk "H" with kind := .doWhile, loop := some { hasCondition := true } }], []⟩, 6, _, ⟨_, _, _, _, 0, rfl⟩, ⟨⟨_, rfl, rfl⟩, rfl, rfl, rfl, rfl⟩, fun _ _ _ => rfl, panicky_distinct, ?_, ?_,
    by simp, rfl, rfl, ?_, rfl, rfl, fun m => ?_⟩
  · intro t ht uri
    rw [List.mem_singleton.1 ht]
    exact fun h => nomatch h
  · refine ⟨⟨by decide, by decide, by decide, by decide⟩, ⟨fun _ => 0, fun l hl => nomatch hl⟩, fun t => List.Pairwise.nil, fun t ht uri h => ?_⟩
    rw [List.mem_singleton.1 ht] at h
    cases h
  · rintro t ⟨ob, hm, h1, h2⟩
    have h3 : ob.status ≠ .waiting := by
      have : ∀ ob ∈ ((Eng.run panickyEnv (Eng.step panickyEnv panickyStart) 6).insts.map (·.objs)).flatten, ob.status ≠ .waiting := by decide +kernel
      exact this ob hm
    exact h3 h2
  · rw [Eng.run_add]
    unfold flowStatus
    rw [(idle (env := panickyEnv) (e := Eng.run panickyEnv (Eng.step panickyEnv panickyStart) 6) rfl rfl m).1]
    rfl

/-- A and B precede C; the error handler consists of H. -/
def halfway : Def := { name := "s", main := ⟨[tk "A", tk "B", tk "C"], deps 1 [("A", "C"), ("B", "C")]⟩, eh := some ⟨[tk "H"], []⟩ }

theorem halfway_distinct : LinksDistinct halfway := by unfold LinksDistinct; decide

/-- B fails; the flow is available to be called. -/
def halfwayEnv : Env :=
  { tableEnv (fun t => if t = "B" then { res := .err (.plain "boom") } else {}) (fun _ => .ok true) with
    defs := fun u => if u = "r" then .ok (some halfway) else .ok none }

def halfwayCalled : Eng := Eng.run halfwayEnv (Eng.init halfwayEnv "1" "u" hostFlow []) 20

/-- C104 fails for a flow that is called by another one: a flow whose error handler completes it when it is started as the main flow stays
active for ever when it is called, because a task that was waiting for the failed task is still in its table. The error handler has
been executed to its end, nothing is left to execute, and the calling task waits for ever. -/
theorem C104_negation_called :
    LinksDistinct halfway ∧ SettingsOk halfwayEnv ∧ hostFlow.main.tasks.map (·.act) = [.subflow "r"] ∧
    halfwayEnv.defs "r" = .ok (some halfway) ∧
    flowStatus (Eng.run halfwayEnv (Eng.init halfwayEnv "1" "u" halfway []) 20) 0 = some .completed ∧
    ∃ I J, halfwayCalled.insts = [I, J] ∧ J.defn = halfway ∧ J.handling = true ∧ ExecutedEh J.trace "H" ∧ HasStatusEh J "H" .done ∧
      (∃ ob ∈ J.objs, ob.task = ⟨false, "C"⟩ ∧ ob.status = .entered) ∧
      ∀ m, flowStatus (Eng.run halfwayEnv halfwayCalled m) 0 = some .active ∧
        flowStatus (Eng.run halfwayEnv halfwayCalled m) 1 = some .active ∧
        (Eng.run halfwayEnv halfwayCalled m).queue = [] ∧ (Eng.run halfwayEnv halfwayCalled m).stack = [] := by
  have hi : ∀ m, (Eng.run halfwayEnv halfwayCalled m).insts = halfwayCalled.insts ∧ (Eng.run halfwayEnv halfwayCalled m).stack = [] ∧
      (Eng.run halfwayEnv halfwayCalled m).queue = [] := idle (by decide +kernel) (by decide +kernel)
  have h0 : flowStatus halfwayCalled 0 = some .active := by decide +kernel
  have h1 : flowStatus halfwayCalled 1 = some .active := by decide +kernel
  refine ⟨halfway_distinct, fun _ _ _ => rfl, rfl, rfl, by decide +kernel, _, _, rfl, rfl, rfl, ⟨3, ?_⟩, ?_, ?_, fun m => ⟨?_, ?_, (hi m).2.2, (hi m).2.1⟩⟩
  · decide +kernel
  · unfold HasStatusEh; decide +kernel
  · decide +kernel
  · unfold flowStatus at h0 ⊢; rw [(hi m).1]; exact h0
  · unfold flowStatus at h1 ⊢; rw [(hi m).1]; exact h1

/-- `halfway` with an error handler whose only task has the identifier of the task that waits. -/
def halfwayTwice : Def := { halfway with eh := some ⟨[tk "C"], []⟩ }

def halfwayTwiceEnv : Env := { halfwayEnv with defs := fun u => if u = "r" then .ok (some halfwayTwice) else .ok none }

def halfwayTwiceCalled : Eng := Eng.run halfwayTwiceEnv (Eng.init halfwayTwiceEnv "1" "u" hostFlow []) 20

/-- C104 fails for a called flow in a second way: if a task of the error handler has the identifier of a task that is in progress, this
task is entered instead, and the task of the error handler is never executed; the calling task waits for ever. Started as the main
flow, the same flow executes its error handler and is completed. -/
theorem C104_negation_identifiers :
    LinksDistinct halfwayTwice ∧ SettingsOk halfwayTwiceEnv ∧ halfwayTwiceEnv.defs "r" = .ok (some halfwayTwice) ∧
    (∃ J, (Eng.run halfwayTwiceEnv (Eng.init halfwayTwiceEnv "1" "u" halfwayTwice []) 20).insts = [J] ∧ J.status = .completed ∧
      ExecutedEh J.trace "C") ∧
    ∀ m, ∃ I J, (Eng.run halfwayTwiceEnv halfwayTwiceCalled m).insts = [I, J] ∧ J.defn = halfwayTwice ∧ J.handling = true ∧
      I.status = .active ∧ J.status = .active ∧ ¬ ExecutedEh J.trace "C" ∧
      (Eng.run halfwayTwiceEnv halfwayTwiceCalled m).queue = [] ∧ (Eng.run halfwayTwiceEnv halfwayTwiceCalled m).stack = [] := by
  have hi : ∀ m, (Eng.run halfwayTwiceEnv halfwayTwiceCalled m).insts = halfwayTwiceCalled.insts ∧
      (Eng.run halfwayTwiceEnv halfwayTwiceCalled m).stack = [] ∧ (Eng.run halfwayTwiceEnv halfwayTwiceCalled m).queue = [] :=
    idle (by decide +kernel) (by decide +kernel)
  refine ⟨halfway_distinct, fun _ _ _ => rfl, rfl, ⟨_, rfl, by decide +kernel, ⟨3, by decide +kernel⟩⟩, fun m => ?_⟩
  refine ⟨_, _, (hi m).1.trans rfl, rfl, rfl, rfl, rfl, ?_, (hi m).2.2, (hi m).2.1⟩
  rintro ⟨o, ho⟩
  have h : ∀ ev ∈ (halfwayTwiceCalled.insts.map (·.trace)).flatten, (match ev with | .taskStatus _ t _ => t.eh | _ => false) = false := by
    decide +kernel
  exact nomatch h _ (List.mem_flatten.2 ⟨_, List.mem_map_of_mem (List.mem_cons_of_mem _ (List.mem_singleton.2 rfl)), ho⟩)

end Flow
