import Verif.Proofs.Accumulate
import Verif.Proofs.CoverFlag
import Verif.Proofs.Bare
import Verif.Spec.Plain
import Verif.Spec.Handler

/-!
Coverage reports: C62, C63, C64; tasks of the error handler: C65.
-/

namespace Flow
open Spec

variable {env : Env}

theorem recorded_reachable {s : CovRun} (h : Recorded env s) : Reachable env s.eng := by
  obtain ⟨id, uri, d, ins, n, rfl⟩ := h
  exact ⟨id, uri, d, ins, n, by rw [CovRun.run_eng]; rfl⟩

/-! ### C62 -/

/-- **C62, links** In every state of every execution with a coverage object, and for every flow instance (flows, subflows,
error handlers): the links reported for it are exactly the links that it followed, as often and in the order in which they
became followed. -/
theorem C62_links {s : CovRun} (h : Recorded env s) {i : Nat} {I : Inst} (hI : s.eng.insts[i]? = some I) :
    s.cov.filterMap (reportedLink i) = followedLinks I := by
  obtain ⟨id, uri, d, ins, n, rfl⟩ := h
  rw [recorded_reads reads_link id uri d ins i n (.inl fun _ _ _ => rfl), hI]
  unfold followedLinks
  rw [List.filterMap_reverse]
  rfl

/-- **C62, tasks** In flows without loop tasks the tasks reported for a flow instance are exactly those whose status became completed
or failed, in order. For loop tasks the statuses say more than the report: a failing loop task is marked failed twice, and a
resumed one completed in every round (`C62_loop`). What holds for all flows is `C62_tasks`. -/
theorem C62_statuses {s : CovRun} (h : Recorded env s) {i : Nat} {I : Inst} (hI : s.eng.insts[i]? = some I)
    (hl : NoLoops I.defn) : s.cov.filterMap (activityOf i) = finishedTasks I := by
  obtain ⟨id, uri, d, ins, n, rfl⟩ := h
  rw [recorded_reads reads_task id uri d ins i n (.inr fun J hJ => by rw [hI] at hJ; cases hJ; exact hl), hI]
  unfold finishedTasks
  rw [List.filterMap_reverse]
  rfl

/-- **C62, tasks** Every step that evaluates a task adds exactly one entry for this task if the evaluation ends the task
(completed or failed), and none if the task waits, goes on with another round, or the evaluation panics; it adds no entry for
tasks of other flow instances. All earlier entries stay. -/
theorem C62_each_evaluation {s : CovRun} {i o : Nat} {t : TaskRef} {e' : Eng} {r : Eng.EvalOut}
    (hev : Evaluates env s.eng i o t e' r) :
    ∃ new, (s.step env).cov = s.cov ++ new ∧ new.filterMap (activityOf i) = (if ends r then [t.id] else []) ∧
      ∀ j, j ≠ i → new.filterMap (activityOf j) = [] ∧ new.filterMap (reportedLink j) = [] := by
  obtain ⟨⟨w, hn, rfl, rfl, ho⟩, ht⟩ := hev
  obtain ⟨J, ob, td, J', ob', hJ, hJo, hcov, _, hJ', _, _, _⟩ := Eng.evalStep hn ho
  rw [Eng.obj?_eq hJ, hJo] at ht
  cases ht
  refine ⟨_, congrArg (s.cov ++ ·) hcov, ?_, fun j hj => ⟨?_, ?_⟩⟩
  · rw [List.filterMap_append, Eng.covSubs_none reads_task, List.nil_append]
    have hl : ∀ rows, (Eng.covLinks w.inst J' rows).filterMap (activityOf w.inst) = [] := by
      intro rows
      rw [List.filterMap_eq_nil_iff]
      intro a ha
      obtain ⟨x, _, rfl⟩ := List.mem_map.mp ha
      rfl
    have ha : activityOf w.inst (e'.covActivity w.inst J' ob.task) = some ob.task.id := if_pos rfl
    have hd : (Eng.covDone env e' w.inst ob.task).filterMap (activityOf w.inst) = [ob.task.id] := by
      unfold Eng.covDone
      rw [hJ']
      dsimp only
      rw [List.filterMap_append, hl, List.filterMap_cons, ha]
      rfl
    have he : (Eng.covError e' w.inst ob.task).filterMap (activityOf w.inst) = [ob.task.id] := by
      unfold Eng.covError
      rw [hJ']
      dsimp only
      rw [List.filterMap_cons, ha, hl]
    cases r with
    | err _ => exact he
    | panic _ => rfl
    | res x => cases x <;> first | exact hd | rfl
  · rw [List.filterMap_append, Eng.covSubs_none reads_task, Eng.covResult_other reads_task _ hj]; rfl
  · rw [List.filterMap_append, Eng.covSubs_none reads_link, Eng.covResult_other reads_link _ hj]; rfl

/-- **C62** A step that evaluates no task adds no entry: skipped tasks are never reported. -/
theorem C62_no_evaluation {s : CovRun} (hev : ∀ i o t e' r, ¬ Evaluates env s.eng i o t e' r) :
    (s.step env).cov = s.cov := by
  have key : Eng.covStep env s.eng = [] := by
    cases hn : next env s.eng with
    | none => exact Eng.covStep_idle hn
    | some w =>
      cases ho : outcome env (afterPop env s.eng w) w.inst w.obj with
      | none => exact Eng.covStep_none hn ho
      | some x =>
        obtain ⟨J, ob, td, J', ob', hJ, hJo, _⟩ := Eng.evalStep hn ho
        exact absurd ⟨⟨w, hn, rfl, rfl, ho⟩, by rw [Eng.obj?_eq hJ, hJo]; rfl⟩ (hev w.inst w.obj ob.task x.1 x.2)
  show s.cov ++ Eng.covStep env s.eng = s.cov
  rw [key, List.append_nil]

/-- **C62, tasks** For all flows, also with loop tasks: at every time the tasks reported for a flow instance are exactly the tasks
of this instance whose evaluation ended (completed or failed), as often and in the order in which that happened. -/
theorem C62_tasks (env : Env) (id uri : String) (d : Def) (ins : AMap String Val) (i n : Nat) :
    Ended env i (Eng.init env id uri d ins) n ((CovRun.run env (CovRun.init env id uri d ins) n).cov.filterMap (activityOf i)) := by
  induction n with
  | zero => exact .start
  | succ n ih =>
    have he : (CovRun.run env (CovRun.init env id uri d ins) n).eng = Eng.run env (Eng.init env id uri d ins) n := CovRun.run_eng env _ n
    generalize hs : CovRun.run env (CovRun.init env id uri d ins) n = s at ih he
    have hstep : CovRun.run env (CovRun.init env id uri d ins) (n + 1) = s.step env := by rw [← hs]; rfl
    rw [hstep]
    by_cases h : ∃ j o t e' r, Evaluates env s.eng j o t e' r
    · obtain ⟨j, o, t, e', r, hev⟩ := h
      obtain ⟨new, hcov, hi, ho⟩ := C62_each_evaluation hev
      rw [hcov, List.filterMap_append]
      by_cases hj : i = j
      · subst hj
        rw [hi]
        cases hr : ends r with
        | true => exact .ended ih (he ▸ hev) hr
        | false =>
          rw [if_neg (by decide), List.append_nil]
          refine .other ih fun o1 t1 e1 r1 h1 => ?_
          rw [← he] at h1
          rw [← (Eng.evaluates_unique hev h1).2.2.2.2, hr]
      · rw [(ho i hj).1, List.append_nil]
        refine .other ih fun o1 t1 e1 r1 h1 => ?_
        rw [← he] at h1
        exact absurd (Eng.evaluates_unique hev h1).1.symm hj
    · rw [C62_no_evaluation fun j o t e' r hev => h ⟨j, o, t, e', r, hev⟩]
      refine .other ih fun o1 t1 e1 r1 h1 => ?_
      rw [← he] at h1
      exact absurd ⟨i, o1, t1, e1, r1, h1⟩ h

/-- The tasks whose evaluations ended are determined by the run. -/
theorem C62_determined {e : Eng} {i n : Nat} {l l' : List TaskId} (h : Ended env i e n l) (h' : Ended env i e n l') : l = l' := by
  induction h generalizing l' with
  | start => cases h'; rfl
  | ended _ hev hr ih =>
    cases h' with
    | ended h1 hev1 _ => rw [ih h1, (Eng.evaluates_unique hev hev1).2.2.1]
    | other h1 hn => rw [hn _ _ _ _ hev] at hr; cases hr
  | other _ hn ih =>
    cases h' with
    | ended h1 hev1 hr => rw [hn _ _ _ _ hev1] at hr; cases hr
    | other h1 _ => exact ih h1

/-- **C62, subflows** The subflows reported are exactly those that were started, in order, each with the flow instance that
started it. -/
theorem C62_subflows {s : CovRun} (h : Recorded env s) :
    s.cov.filterMap subOf = (s.eng.insts.drop 1).map (fun J => (J.host.map (·.1), J.defn.name)) := by
  obtain ⟨id, uri, d, ins, n, rfl⟩ := h
  exact recorded_subs id uri d ins n

/-- **C62, names** Every entry bears the name of the flow that it is about; reported links belong to this flow; reported
tasks, also loop tasks, became completed or failed. -/
theorem C62_named {s : CovRun} (h : Recorded env s) : ∀ c ∈ s.cov, NamedAfter s.eng c ∧
    ∀ j f t b, c = .activity j f t b → ∃ I : Inst, s.eng.insts[j]? = some I ∧ t ∈ finishedTasks I := by
  obtain ⟨id, uri, d, ins, n, rfl⟩ := h
  exact recorded_told id uri d ins n

/-- Concrete case: `A` calls a subflow and is followed by `B`, which fails; the error link leads to `C`, the other link to `D`. -/
def coverFlow : Def :=
  { name := "main"
    main := ⟨[{ tk "A" with act := .subflow "u" }, tk "B", tk "C", tk "D"],
      [⟨0, "A", "B", .dependency, ""⟩, ⟨1, "B", "C", .error, ""⟩, ⟨2, "B", "D", .dependency, ""⟩]⟩ }

def coverEnv : Env :=
  { tableEnv (fun t => if t = "B" then { res := .err (.plain "boom") } else {}) (fun _ => .ok true) with
    defs := fun u => if u = "u" then .ok (some { name := "sub", main := ⟨[tk "X", tk "Y"], deps 0 [("X", "Y")]⟩ }) else .ok none }

def coverRun : CovRun := CovRun.run coverEnv (CovRun.init coverEnv "1" "m" coverFlow []) 40

/-- What an entry shows. -/
def covShown : Cov → String × String × String × Bool
  | .activity _ f t b => ("activity", f, t, b)
  | .link _ f l b => ("link", f, l.dst, b)
  | .subflow _ f a s => ("subflow", f ++ "." ++ a, s, true)

example : Recorded coverEnv coverRun := ⟨_, _, _, _, _, rfl⟩

example : coverRun.cov.map covShown =
    [("subflow", "main.A", "sub", true), ("link", "sub", "Y", true), ("activity", "sub", "X", true), ("activity", "sub", "Y", true),
     ("link", "main", "B", true), ("activity", "main", "A", true), ("activity", "main", "B", true), ("link", "main", "C", true),
     ("activity", "main", "C", true)] := by decide +kernel

example : (coverRun.eng.insts.map (·.status)) = [.completed, .completed] ∧
    coverRun.eng.insts.map followedLinks = [[0, 1], [0]] ∧
    coverRun.eng.insts.map finishedTasks = [["A", "B", "C"], ["X", "Y"]] := by decide +kernel

/-- A do-while task that fails. -/
def failedLoop : Def :=
  { name := "main", main := ⟨[{ tk "A" with kind := .doWhile, loop := some { hasCondition := true } }], []⟩ }

def failedLoopEnv : Env := tableEnv (fun _ => { res := .err (.plain "boom") }) (fun _ => .ok true)

/-- C62, loop tasks: the task is marked failed twice but reported once. -/
theorem C62_loop : ∃ (env : Env) (s : CovRun) (I : Inst), Recorded env s ∧ s.eng.insts[0]? = some I ∧
    finishedTasks I = ["A", "A"] ∧ s.cov.filterMap (activityOf 0) = ["A"] :=
  ⟨failedLoopEnv, CovRun.run failedLoopEnv (CovRun.init failedLoopEnv "1" "m" failedLoop []) 10, _, ⟨_, _, _, _, _, rfl⟩, rfl,
    by decide +kernel, by decide +kernel⟩

-- non-trivial instance: the failing loop task is reported once, because its evaluation ended once
example : Ended failedLoopEnv 0 (Eng.init failedLoopEnv "1" "m" failedLoop []) 10 ["A"] := by
  have h := C62_tasks failedLoopEnv "1" "m" failedLoop [] 0 10
  have h2 : (CovRun.run failedLoopEnv (CovRun.init failedLoopEnv "1" "m" failedLoop []) 10).cov.filterMap (activityOf 0) = ["A"] := by decide +kernel
  rw [h2] at h
  exact h

/-! ### C63 -/

/-- C63: with an interceptor that overrides nothing, a flow runs as without: at every time all flow instances, tasks, values
and results are the same.

Partial: for interceptors with a coverage object (`C63_negation`). -/
theorem C63_transparent_partial (env : Env) (id uri : String) (d : Def) (ins : AMap String Val) (n : Nat) :
    (CovRun.run env (CovRun.init env id uri d ins) n).eng = Eng.run env (Eng.init env id uri d ins) n :=
  CovRun.run_eng env _ n

/-- **C63, refuted** With an interceptor that has no coverage object, no flow without subflows ever completes: the first task
that ends makes the engine panic. -/
theorem C63_never_completes {d : Def} (hl : NoSubflows d) (id uri : String) (ins : AMap String Val) (n : Nat) :
    flowStatus (Eng.runBare env (Eng.init env id uri d ins) n) 0 ≠ some .completed := by
  obtain ⟨I, hI, _, hb⟩ := (Eng.bare_run (env := env) hl id uri ins n).one
  unfold flowStatus
  rw [hI]
  intro hc
  exact hb.status (Option.some.inj hc)

def oneTask : Def := { name := "main", main := ⟨[tk "A", tk "B"], deps 0 [("A", "B")]⟩ }

theorem oneTask_noSubflows : NoSubflows oneTask := by
  intro t td h uri hc
  have h1 := List.mem_of_find?_eq_some (show ((oneTask.graph t.eh).tasks.find? (fun x => x.id = t.id)) = some td from h)
  have h2 : ∀ b, ∀ x ∈ (oneTask.graph b).tasks, x.act = .user := by decide
  rw [h2 _ _ h1] at hc
  cases hc

/-- **C63, negation** A flow that completes without an interceptor, and fails with an interceptor that overrides nothing and
has no coverage object. -/
theorem C63_negation : ∃ (env : Env) (d : Def), NoSubflows d ∧
    flowStatus (Eng.run env (Eng.init env "1" "m" d []) 10) 0 = some .completed ∧
    flowStatus (Eng.runBare env (Eng.init env "1" "m" d []) 10) 0 = some .failed :=
  ⟨plainEnv, oneTask, oneTask_noSubflows, by decide +kernel, by decide +kernel⟩

/-! ### C64 -/

/-- C64: an entry flagged as part of the main flow is about a link of the main graph of its flow, or a task of the main graph;
an entry that is not flagged was made after an error handler was started or a flow failed.

Partial: for tasks only those of the flow that was started; for a subflow the flag is that of the started flow
(`C64_negation`), and entries without the flag need not be about the error handler (`C64_negation_late`). -/
theorem C64_flags_partial {s : CovRun} (h : Recorded env s) : ∀ c ∈ s.cov, FlagMeans s.eng c := by
  obtain ⟨id, uri, d, ins, n, rfl⟩ := h
  exact recorded_flags id uri d ins n

/-- A subflow whose task `X` fails and whose error handler has the tasks `Y` and `Z`. -/
def handlerCoverEnv : Env :=
  { tableEnv (fun t => if t = "X" then { res := .err (.plain "boom") } else {}) (fun _ => .ok true) with
    defs := fun u => if u = "u" then
      .ok (some { name := "sub", main := ⟨[tk "X"], []⟩, eh := some ⟨[tk "Y", tk "Z"], deps 7 [("Y", "Z")]⟩ }) else .ok none }

def handlerCover : CovRun :=
  CovRun.run handlerCoverEnv (CovRun.init handlerCoverEnv "1" "m" { name := "main", main := ⟨[{ tk "A" with act := .subflow "u" }], []⟩ } []) 40

/-- The entry shows the task with this flag. -/
def shows (flow : String) (t : TaskId) (main : Bool) (c : Cov) : Bool := covShown c == ("activity", flow, t, main)

/-- **C64, refuted for subflows** The tasks of the error handler of a subflow are reported as part of the main flow. -/
theorem C64_negation : ∃ (env : Env) (s : CovRun) (I : Inst), Recorded env s ∧ s.eng.insts[1]? = some I ∧ I.defn.name = "sub" ∧
    s.cov.any (shows "sub" "Y" true) = true ∧ ¬ ∃ td ∈ I.defn.main.tasks, td.id = "Y" :=
  ⟨handlerCoverEnv, handlerCover, _, ⟨_, _, _, _, _, rfl⟩, rfl, rfl, by decide +kernel, by decide +kernel⟩

/-- `A` fails before `B` is executed; the flow has an error handler with the task `H`. -/
def lateCoverEnv : Env := tableEnv (fun t => if t = "A" then { res := .err (.plain "boom") } else {}) (fun _ => .ok true)

def lateCover : CovRun :=
  CovRun.run lateCoverEnv (CovRun.init lateCoverEnv "1" "m"
    { name := "main", main := ⟨[tk "A", tk "B", tk "C"], deps 0 [("B", "C")]⟩, eh := some ⟨[tk "H"], []⟩ } []) 40

/-- **C64, refuted for main tasks** A task of the main flow that is executed after the error handler was started is reported
as part of the error handler. -/
theorem C64_negation_late : ∃ (env : Env) (s : CovRun) (I : Inst), Recorded env s ∧ s.eng.insts[0]? = some I ∧
    s.cov.any (shows "main" "B" false) = true ∧ s.cov.any (shows "main" "H" false) = true ∧
    ∃ td ∈ I.defn.main.tasks, td.id = "B" :=
  ⟨lateCoverEnv, lateCover, _, ⟨_, _, _, _, _, rfl⟩, rfl, by decide +kernel, by decide +kernel, by decide +kernel⟩

/-! ### C65 -/

/-- **C65** In every state of every execution and for every flow instance: no task of the error handler has changed its status
or had its activity called or resumed before the error handler was started. -/
theorem C65_handler_after_start {e : Eng} (hr : Reachable env e) {i : Nat} {I : Inst} (hI : e.insts[i]? = some I) :
    HandlerLast I.trace :=
  ((Eng.ehOK_reachable hr).all i I hI).trace

/-- **C65** In particular, if a flow instance has executed a task of the error handler then its error handler was started,
exactly once. -/
theorem C65_once {e : Eng} (hr : Reachable env e) {i : Nat} {I : Inst} (hI : e.insts[i]? = some I) {o : Nat} {t : TaskRef}
    (ht : t.eh = true) (hev : .evalAct o t ∈ I.trace) : I.trace.count .ehStart = 1 := by
  have h1 : Ev.ehStart ∈ I.trace := by
    have h := C65_handler_after_start hr hI
    revert h
    generalize I.trace = tr at hev
    induction tr with
    | nil => cases hev
    | cons ev pre ih =>
      intro h
      rcases List.mem_cons.mp hev with rfl | hev
      · exact List.mem_cons_of_mem _ (h.1 t rfl ht)
      · exact List.mem_cons_of_mem _ (ih hev h.2)
  have h2 : ∀ tr : List Ev, TraceOK I.defn tr → tr.count .ehStart ≤ 1 := by
    intro tr
    induction tr with
    | nil => exact fun _ => Nat.zero_le _
    | cons ev pre ih =>
      intro h
      by_cases hev : ev = .ehStart
      · subst hev
        rw [List.count_cons_self, List.count_eq_zero.mpr (h.1 : Ev.ehStart ∉ pre)]
        exact Nat.le_refl _
      · rw [List.count_cons_of_ne hev]
        exact ih h.2
  have h3 := h2 _ ((Eng.engOK_reachable hr).ok i I hI).trace
  have h4 := List.count_pos_iff.mpr h1
  omega

/-- Concrete case: the error handler of the subflow above is started and its two tasks are executed afterwards. -/
example : Reachable handlerCoverEnv handlerCover.eng := recorded_reachable ⟨_, _, _, _, _, rfl⟩

def handlerEvents (I : Inst) : List String := I.trace.reverse.filterMap fun ev =>
  match ev with
  | .evalAct _ t => some t.id
  | .ehStart => some "error handler"
  | _ => none

example : handlerCover.eng.insts.map handlerEvents = [["A"], ["X", "error handler", "Y", "Z"]] := by decide +kernel

end Flow
