{
 "claims": [
  {
   "property": "C01",
   "status": "proved",
   "theorems": [
    "Flow.C01_ready_iff",
    "Flow.C01_evaluated_only_when_ready",
    "Flow.C01_decided_by_source",
    "Flow.C01_ready_when",
    "Flow.C01_waits_when"
   ],
   "note": "decision logic, soundness in every run, and what the step that enters a task does"
  },
  {
   "property": "C02",
   "status": "partial",
   "theorems": [
    "Flow.C02_skip_iff",
    "Flow.C02_skip_links",
    "Flow.C02_skipped_only_when",
    "Flow.C02_skipped_when",
    "Flow.C02_never_executed_partial",
    "Flow.C02_skipped_iff_partial",
    "Flow.C02_negation"
   ],
   "note": "Proved for every flow: the skip decision, its soundness in every run and the effect of the step that enters a skipped task. Proved for covered flows (acyclic, safe order of links, subflow tasks that are not loops; no failing settings, no error handler start or explicit return so far; called subflows end at most once and, for the main flow, no error handler was started): a skipped task is never executed, before or later, and at the end exactly the tasks not required are skipped. False for unsafe link orders (C02_negation)."
  },
  {
   "property": "C03",
   "status": "proved",
   "theorems": [
    "Flow.C03_links_after_success",
    "Flow.C03_fails_iff",
    "Flow.C03_first_error",
    "Flow.C03_links_decided"
   ],
   "note": "decision logic and the step of the engine that finishes a task"
  },
  {
   "property": "C04",
   "status": "proved",
   "theorems": [
    "Flow.C04_error_links",
    "Flow.C04_handled_locally"
   ],
   "note": ""
  },
  {
   "property": "C05",
   "status": "proved",
   "theorems": [
    "Flow.C05_order_after_success",
    "Flow.C05_order_after_failure",
    "Flow.C05_followed_first",
    "Flow.C05_entered_after_success",
    "Flow.C05_entered_after_failure"
   ],
   "note": "decision logic and the steps of the engine that finish or fail a task"
  },
  {
   "property": "C06",
   "status": "partial",
   "theorems": [
    "Flow.C06_executed_partial",
    "Flow.C06_executed_only_partial",
    "Flow.C06_schedule_independent_partial",
    "Flow.C06_negation"
   ],
   "note": "Proved for covered flows (acyclic, safe order of links, subflow tasks that are not loops; no failing settings, no error handler start or explicit return so far; called subflows end at most once and, for the main flow, no error handler was started). False for all acyclic flows: with an unhandled error the schedule decides whether an independent task is executed (C06_negation)."
  },
  {
   "property": "C07",
   "status": "partial",
   "theorems": [
    "Flow.C07_at_most_once_partial",
    "Flow.C07_one_decision_partial",
    "Flow.C07_negation",
    "Flow.C07_negation_subflow"
   ],
   "note": "Proved under the conditions of C06; false for acyclic flows with an unsafe order of links: a failing task with an error link is evaluated twice (negation). Also false, with a safe order, for a task that calls a subflow which first fails and then completes (second negation)."
  },
  {
   "property": "C08",
   "status": "partial",
   "theorems": [
    "Flow.C08_finishes_partial",
    "Flow.C08_finishes_no_loops_partial",
    "Flow.C08_not_stuck_partial",
    "Flow.C08_not_stuck_subflows_partial",
    "Flow.C08_rests_calls_partial",
    "Flow.C08_finishes_calls_partial",
    "Flow.C08_finishes_one_end_partial",
    "Flow.C08_negation",
    "Flow.C08_negation_settings"
   ],
   "note": "Covered flows: an undisturbed instance, with or without subflow tasks, is never left active without work, and a subflow task never waits for a subflow that has ended. Flows, including flows calling flows nested to any depth without circles, come to rest after a number of steps that depends on the definitions only (loop rounds not counted), whatever the schedule, and then all flow instances are completed. False for unsafe orders of links and failing settings (negations). Missing: subflow tasks with retry, called flows with several end tasks that report their end twice, and the case that an error goes to the error handler or the flow returns explicitly."
  },
  {
   "property": "C09",
   "status": "partial",
   "theorems": [
    "Flow.C09_not_premature_partial",
    "Flow.C09_negation"
   ],
   "note": "Proved under the conditions of C06. False in general: when the error handler completes the flow, a task of another branch that repeats is still pending (C09_negation, with the oldest item taken first)."
  },
  {
   "property": "C10",
   "status": "proved",
   "theorems": [
    "Flow.C10_finished_stays_finished",
    "Flow.C10_finished_is_final"
   ],
   "note": ""
  },
  {
   "property": "C100",
   "status": "partial",
   "theorems": [
    "Flow.C100_interleaving",
    "Flow.C100_at_most_one",
    "Flow.C100_truth_partial",
    "Flow.C100_limit",
    "Flow.C100_delivers",
    "Flow.C100_over",
    "Flow.C100_final_partial",
    "Flow.C100_negation_changed",
    "Flow.C100_negation_running",
    "Flow.C100_negation_never"
   ],
   "note": "A run is an execution of the concurrent machine with a loop, a step counter and results; it delivers at most one result, which is true at the moment of delivery, can always be delivered once the flow is over, and is final if no goroutine works any more. Missing: finality in general (the loop does not wait for the goroutines) and delivery if the flow stays active, both refuted."
  },
  {
   "property": "C101",
   "status": "partial",
   "theorems": [
    "Flow.C101_declared_partial",
    "Flow.C101_negation_default",
    "Flow.C101_negation_subflow",
    "Flow.C101_negation_unreadable"
   ],
   "note": "Proved for top-level runs without state recorder and listener in which no activity returns or replies: one result, exactly the declared outputs, with the computed values of outputs without default. Negations: an output with a default always has the default (C101_negation_default); the task that called a subflow gets no outputs, proved for all reachable states (C101_negation_subflow) and shown by a run (C101_negation_unreadable)."
  },
  {
   "property": "C102",
   "status": "partial",
   "theorems": [
    "Flow.C102_same",
    "Flow.C102_verdicts_partial",
    "Flow.C102_true",
    "Flow.C102_status_partial",
    "Flow.C102_evaluation",
    "Flow.C102_failure",
    "Flow.C102_called",
    "Flow.C102_flow_partial",
    "Flow.C102_resumed",
    "Flow.C102_expected",
    "Flow.C102_mocked",
    "Flow.C102_skipped",
    "Flow.C102_negation_round",
    "Flow.C102_negation_retry",
    "Flow.C102_negation_panic",
    "Flow.C102_negation_called",
    "Flow.C102_negation_flow"
   ],
   "note": "Proved: the interceptor's book does not change the run; the verdicts are those of the last attempt of the task that succeeded or whose activity failed, each true in the state after this attempt; no verdict Pass or Fail and no status without such an attempt; the noted attempts of an evaluation are exactly the attempts to evaluate the activity; failures and calls of activities are noted; the assertions of the flow. Missing, since the code violates it: verdicts about all rounds of a loop, about failing attempts before a successful retry, failures by panics and of called flows, the status of the flow (negations). An activity that is skipped keeps its status while its assertions are judged (C102_skipped)."
  },
  {
   "property": "C103",
   "status": "partial",
   "theorems": [
    "Flow.C103_ends_partial",
    "Flow.C103_outcome_partial",
    "Flow.C103_negation_recursion"
   ],
   "note": "Every run of a tame flow ends and in one of four ways: for all environments, limits, circles within the flow, endless loops and self-calling flows. Missing: flows whose links and handler links together form a circle and that share task identifiers between flow and handler, where the negation shows a run that recurses for ever; returnId option and exception assertions for the outcome. That activities and expressions return is assumed."
  },
  {
   "property": "C104",
   "status": "partial",
   "theorems": [
    "Flow.C104_since",
    "Flow.C104_executed_partial",
    "Flow.C104_executed_only_partial",
    "Flow.C104_at_most_once_partial",
    "Flow.C104_one_decision_partial",
    "Flow.C104_not_stuck_partial",
    "Flow.C104_skipped_iff_partial",
    "Flow.C104_not_premature_partial",
    "Flow.C104_finishes_partial",
    "Flow.C104_no_panic",
    "Flow.C104_applies",
    "Flow.C104_negation_panic",
    "Flow.C104_negation_called",
    "Flow.C104_negation_identifiers"
   ],
   "note": "Proved for the main flow and error handlers that are acyclic, have a safe order of links and call no other flow, if no work item of the failed flow was left in the queue. False if a condition of a loop of the error handler is no truth value (C104_negation_panic). Missing: error handlers of called flows, error handlers that call flows, explicit returns in the error handler.  False for called flows: the same flow completes as main flow and hangs for ever when called (C104_negation_called).  False also for a called flow whose error handler uses the identifier of a task in progress (C104_negation_identifiers).  C104_applies replaces the premise that nothing panics by the premise that conditions of loops are truth values or cannot be computed."
  },
  {
   "property": "C105",
   "status": "partial",
   "theorems": [
    "Flow.C105_names",
    "Flow.C105_stable",
    "Flow.C105_fallback",
    "Flow.C105_recorded_is_seen",
    "Flow.C105_options",
    "Flow.C105_limit",
    "Flow.C105_limit_default",
    "Flow.C105_limit_same_partial",
    "Flow.C105_limit_text",
    "Flow.C105_negation_names",
    "Flow.C105_negation_limit"
   ],
   "note": "Proved for all histories of readings and all environments. Missing: the reported name can change once, and the two ways of execution read the step limit at different times (two negations); simultaneous readings by several goroutines are not modelled (the package variables are not synchronised)."
  },
  {
   "property": "C106",
   "status": "partial",
   "theorems": [
    "Flow.C106_once",
    "Flow.C106_own_partial",
    "Flow.C106_resource",
    "Flow.C106_remote_partial",
    "Flow.C106_set",
    "Flow.C106_provided",
    "Flow.C106_negation_second",
    "Flow.C106_negation_packages",
    "Flow.C106_negation_mode",
    "Flow.C106_negation_replaced"
   ],
   "note": "Proved for one application per process with an existing recording mode: recorder, mode, tracking, resources; remote flows if only the flow package is used; the effect of SetResource exactly. False for a second application, for both packages together, for unknown recording modes and for actions created before a flow is replaced (four negations)."
  },
  {
   "property": "C107",
   "status": "partial",
   "theorems": [
    "Flow.C107_ahead",
    "Flow.C107_ahead_calls",
    "Flow.C107_stops_partial",
    "Flow.C107_negation"
   ],
   "note": "C107_ahead and C107_ahead_calls hold for all reachable states. C107_stops_partial assumes that nothing of the failed flow is pending when the error handler starts (and, for called flows, that the handler uses no identifier of a task in progress); without the assumption the code violates the property: C107_negation, disagreement 68."
  },
  {
   "property": "C108",
   "status": "partial",
   "theorems": [
    "Flow.C108_data_partial",
    "Flow.C108_outcome_partial",
    "Flow.C108_called_partial",
    "Flow.kept_of_writes",
    "Flow.C108_result_partial",
    "Flow.C108_negation"
   ],
   "note": "Proved for main flows, with loops and retries, in which every error is handled by error links and no activity of the main flow returns early. If one execution completes, every other one whose tasks agree on equal data (in each round of a loop) stays undisturbed, completes within a bound given by the size of the flow and the rounds of its loops, and ends with the same data (C108_outcome_partial, for main flows without called flows). Called flows are allowed in C108_data_partial and C108_called_partial if each of them ends at most once and no error handler is started; the latter shows that the other execution stays undisturbed and, once the called flows have ended and nothing is left to do, is completed with the same data. The attributes named in the data plan are compared; the plan must hold for the executions (kept_of_writes gives a static condition). The result delivered to the caller is covered by C108_result_partial. Missing: that called flows end. For the error data _E, shared by all failing tasks, the statement is false (C108_negation)."
  },
  {
   "property": "C109",
   "status": "partial",
   "theorems": [
    "Flow.C109_inputs",
    "Flow.C109_legacy",
    "Flow.C109_configured",
    "Flow.C109_outputs_partial",
    "Flow.C109_undeclared",
    "Flow.C109_legacy_default",
    "Flow.C109_setting",
    "Flow.C109_negation_kept",
    "Flow.C109_negation_configured",
    "Flow.C109_negation_expression",
    "Flow.C109_negation_loop"
   ],
   "note": "Inputs, legacy reads and outputs that the execution sets are proved for all sequences of executions. For outputs that an execution does not set the statement is false; the negations are general."
  },
  {
   "property": "C11",
   "status": "partial",
   "theorems": [
    "Flow.C11_idle_partial",
    "Flow.C11_negation_executes",
    "Flow.C11_negation_status"
   ],
   "note": "Proved once neither the subflow nor a subflow below it has pending work; violated while parallel branches of a finished subflow are pending (proved by two runs)."
  },
  {
   "property": "C110",
   "status": "partial",
   "theorems": [
    "Flow.C110_caught_partial",
    "Flow.C110_source",
    "Flow.C110_negation",
    "Flow.C110_negation_link"
   ],
   "note": "Holds if the conditions of do-while loops are truth values or cannot be computed; the only other way in which an evaluation can panic is excluded by an invariant of iterators. Fails for conditions that are no truth values (proved for all of them in flows without error handler, with a concrete flow). Panics of libraries outside of the modelled code are not covered."
  },
  {
   "property": "C111",
   "status": "partial",
   "theorems": [
    "Flow.C111_conditions",
    "Flow.C111_compiled",
    "Flow.C111_tasks",
    "Flow.C111_links",
    "Flow.C111_negation"
   ],
   "note": "Everything is proved for the flow itself, and for the tasks and conditions of the error handler. Missing: the links of an error handler are not found by their number, which C111_negation shows for all flows with an error handler."
  },
  {
   "property": "C112",
   "status": "partial",
   "theorems": [
    "Flow.C112_same",
    "Flow.C112_tag",
    "Flow.C112_round",
    "Flow.C112_entered",
    "Flow.C112_kept",
    "Flow.C112_repeated",
    "Flow.C112_distinct_partial",
    "Flow.C112_untraced",
    "Flow.C112_negation_entered",
    "Flow.C112_negation_turns"
   ],
   "note": "Proved with tracing, for all flows: fresh identifiers for repetitions, equal ones within a round, distinct spans before and after a repetition unless the task is entered again. Refuted for tasks that are entered again and without tracing."
  },
  {
   "property": "C113",
   "status": "partial",
   "theorems": [
    "Flow.C113_stable",
    "Flow.C113_task",
    "Flow.C113_nested",
    "Flow.C113_called_partial",
    "Flow.C113_negation"
   ],
   "note": "Proved for all spans of tasks, for the span of the top-level flow and of flows that it calls. Refuted for flows called by called flows: the named parent is the top-level flow. The tag task_type is not modelled."
  },
  {
   "property": "C114",
   "status": "partial",
   "theorems": [
    "Flow.C114_key_same_flow",
    "Flow.C114_key",
    "Flow.C114_evaluation",
    "Flow.C114_until",
    "Flow.C114_unused",
    "Flow.C114_only_partial",
    "Flow.C114_results",
    "Flow.C114_start",
    "Flow.C114_negation_name",
    "Flow.C114_negation_id",
    "Flow.C114_negation_handler"
   ],
   "note": "Shown for every task evaluation, for runs up to the task, and for unused interceptors; between flows under the hypothesis that flow names contain no hyphen. False for names with hyphens, for inputs and skipping, and for handler tasks (negations)."
  },
  {
   "property": "C115",
   "status": "partial",
   "theorems": [
    "Flow.C115_attempt_partial",
    "Flow.C115_evaluation_partial",
    "Flow.C115_run_partial",
    "Flow.C115_negation"
   ],
   "note": "Proved for every attempt, for evaluations of plain tasks without retry, and for the rest of the run of flows without subflows as long as the mocked task is not pending again and activities depend only on the data of the flow and their task; outputs must be valid and the output mapping must not look at the list of calls. Missing: retries and loops, repeated evaluations of the mocked task, runs with subflows. False for outputs that violate their schema (negation)."
  },
  {
   "property": "C12",
   "status": "partial",
   "theorems": [
    "Flow.C12_return_partial",
    "Flow.C12_caller_partial",
    "Flow.C12_negation",
    "Flow.C12_negation_subflow",
    "Flow.C12_negation_nil"
   ],
   "note": "Proved: a task that calls Return and whose link expressions do not fail completes its flow, enters no successor, the recorded result is exactly the data and error, and for a top-level flow the caller receives exactly this one result (for non-nil data). Disproved in general: a failing link expression of the returning task sends the flow to error handling, an error returned by a subflow is dropped (its parent task succeeds), and a nil result is replaced by the declared outputs."
  },
  {
   "property": "C13",
   "status": "partial",
   "theorems": [
    "Flow.C13_unhandled_error",
    "Flow.C13_caller_partial",
    "Flow.C13_negation_limit"
   ],
   "note": "Proved: the flow fails with exactly the error, stays failed, no later work; the caller receives exactly this error unless the failure happens in the last step allowed by the step limit. Disproved in that case: the caller receives the limit error."
  },
  {
   "property": "C14",
   "status": "proved",
   "theorems": [
    "Flow.C14_started_at_most_once",
    "Flow.C14_handler_started"
   ],
   "note": ""
  },
  {
   "property": "C15",
   "status": "partial",
   "theorems": [
    "Flow.C15_failure_in_handler_partial",
    "Flow.C15_negation"
   ],
   "note": "the code does not return the error of a failing error handler of a top-level flow; everything else proved"
  },
  {
   "property": "C16",
   "status": "partial",
   "theorems": [
    "Flow.C16_others_unchanged_partial",
    "Flow.C16_negation"
   ],
   "note": "the error handler of a subflow empties the task table of the top-level flow, so the property is violated; other instances are unaffected"
  },
  {
   "property": "C17",
   "status": "partial",
   "theorems": [
    "Flow.C17_results_only_at_end",
    "Flow.C17_at_most_one",
    "Flow.C17_exactly_one_partial",
    "Flow.C17_identifier",
    "Flow.C17_negation_none",
    "Flow.C17_negation_reply",
    "Flow.C17_negation_assertion"
   ],
   "note": "Proved for runs that end with a Completed or Failed flow or at the limit: exactly one result, and which one. Disproved in general: a flow that ends while Active delivers nothing, an activity reply and an exception assertion add results. The identifier sent on request comes first and changes nothing else."
  },
  {
   "property": "C18",
   "status": "partial",
   "theorems": [
    "Flow.C18_at_most",
    "Flow.C18_starts_at_zero",
    "Flow.C18_limit_reported",
    "Flow.C18_loop_partial",
    "Flow.C18_loop_reported_partial",
    "Flow.C18_negation_concurrent",
    "Flow.C18_negation_restart"
   ],
   "note": "Proved for the sequential loop. Disproved for concurrent task execution (one item more than the limit) and for a run restarted beyond the limit (stopped without a result). In concurrent mode never more than one item above the limit."
  },
  {
   "property": "C19",
   "status": "partial",
   "theorems": [
    "Flow.C19_attempts",
    "Flow.C19_at_most",
    "Flow.C19_negation"
   ],
   "note": "attempts and their number proved; after an asynchronous failure the code also retries errors that are not retriable (negation with a run)"
  },
  {
   "property": "C20",
   "status": "proved",
   "theorems": [
    "Flow.C20_iterator",
    "Flow.C20_nothing",
    "Flow.C20_again"
   ],
   "note": "for tasks without retry whose activity is synchronous; tasks with retry, waiting activities and called flows: C96"
  },
  {
   "property": "C21",
   "status": "proved",
   "theorems": [
    "Flow.C21_do_while",
    "Flow.C21_index_condition"
   ],
   "note": "for tasks without retry whose activity is synchronous; tasks with retry, waiting activities and called flows: C96"
  },
  {
   "property": "C22",
   "status": "partial",
   "theorems": [
    "Flow.C22_post_do_while_partial",
    "Flow.C22_stuck",
    "Flow.C22_post_iterator_partial",
    "Flow.C22_negation"
   ],
   "note": "the code violates the property: loops over asynchronous activities stop after the first iteration"
  },
  {
   "property": "C23",
   "status": "partial",
   "theorems": [
    "Flow.C23_appends_partial",
    "Flow.C23_accumulated_partial",
    "Flow.C23_prefix_partial",
    "Flow.C23_one_per_iteration_partial",
    "Flow.C23_negation"
   ],
   "note": "For whole runs: the accumulated output is the concatenation of what the steps add, in order; a step adds the outputs of the task exactly when it finishes an iteration, earlier entries never change. Partial: activities and output mappings must not use the attribute _A.<task>; C23_negation shows that another task whose name and output together give the same name destroys the accumulated output. An evaluation that fails after its outputs were stored may have added an entry."
  },
  {
   "property": "C24",
   "status": "proved",
   "theorems": [
    "Flow.C24_only_actor_changes",
    "Flow.C27_start_subflow"
   ],
   "note": ""
  },
  {
   "property": "C25",
   "status": "partial",
   "theorems": [
    "Flow.C25_completed",
    "Flow.C25_failed",
    "Flow.C25_resumed",
    "Flow.C25_negation",
    "Flow.C25_negation_lost",
    "Flow.C12_negation_subflow"
   ],
   "note": "Proved: completion hands over the return data and schedules the parent task; failure hands over the error; the resumed task fails with exactly that error. Disproved: if a link expression of the subflow's error handler fails, the parent task is never resumed; a failure is lost if another branch of the subflow completes it afterwards; an error returned explicitly by the subflow is dropped."
  },
  {
   "property": "C26",
   "status": "proved",
   "theorems": [
    "Flow.C26_unique_ids"
   ],
   "note": ""
  },
  {
   "property": "C27",
   "status": "partial",
   "theorems": [
    "Flow.C27_start",
    "Flow.C27_start_subflow",
    "Flow.C27_negation",
    "Flow.C27_negation_default"
   ],
   "note": "Proved: a flow started from outside has the supplied value, else the declared default; a called flow has the value of the task's input for every declared input, nil if the task has none; the context identifies the instance unless overwritten. Disproved: a supplied attribute named like a context entry replaces it; the declared defaults of a called flow are replaced by nil."
  },
  {
   "property": "C28",
   "status": "partial",
   "theorems": [
    "Flow.C28_no_outputs_partial",
    "Flow.C28_negation_recorder",
    "Flow.C28_negation_listener"
   ],
   "note": "Proved for flows without declared outputs. Disproved for flows with declared outputs: the result is fixed by the first observation."
  },
  {
   "property": "C29",
   "status": "proved",
   "theorems": [
    "Flow.C29_working",
    "Flow.C29_attributes",
    "Flow.C29_reserved"
   ],
   "note": "Every sequence of writes to the instance, through tasks and to working data. C29_reserved records that names beginning with _W. are not ordinary names."
  },
  {
   "property": "C30",
   "status": "proved",
   "theorems": [
    "Flow.C30_graph",
    "Flow.C30_unique",
    "Flow.C30_rejected",
    "Flow.C30_engine",
    "Flow.C30_accepted",
    "Flow.C30_header",
    "Flow.C30_negation_duplicate",
    "Flow.C30_negation_type"
   ],
   "note": "Main flow and error handler, every description. Two oddities the property does not exclude are shown separately: of two tasks with the same id only the last is kept, and a misspelled link type is read as a dependency."
  },
  {
   "property": "C31",
   "status": "partial",
   "theorems": [
    "Flow.C31_restorable",
    "Flow.C31_restored_partial",
    "Flow.C31_items",
    "Flow.C31_negation_panic",
    "Flow.C31_negation_host",
    "Flow.C31_negation_task"
   ],
   "note": "Restoring the document of a reachable state preserves identifier, statuses, attributes, tasks, links, running subflows and pending work whenever it succeeds, and it succeeds exactly if all pending work belongs to running instances. Violations proved: restoring can panic, the host of a subflow is lost, a work item can lose its task instance. JSON encoding of attribute values is assumed to be lossless."
  },
  {
   "property": "C32",
   "status": "partial",
   "theorems": [
    "Flow.C32_unique_partial",
    "Flow.C32_negation",
    "Flow.C32_negation_case"
   ],
   "note": "Exact condition for unique identifiers after a restore; the claim fails in every restorable state with pending work."
  },
  {
   "property": "C33",
   "status": "partial",
   "theorems": [
    "Flow.C33_unnamed",
    "Flow.C33_kept_partial",
    "Flow.C33_order_partial",
    "Flow.C33_status_partial",
    "Flow.C33_negation_order",
    "Flow.C33_negation_order_case",
    "Flow.C33_negation_lost",
    "Flow.C33_negation_panic",
    "Flow.C33_negation_status",
    "Flow.C33_negation_subflow"
   ],
   "note": "Holds without a named step, and for one or two pending items of the main flow (order) resp. one (status). Violations proved for three or more items, items without task instance, items of subflows, and the status of a second task."
  },
  {
   "property": "C34",
   "status": "partial",
   "theorems": [
    "Flow.C34_new",
    "Flow.C34_restart_partial",
    "Flow.C34_negation"
   ],
   "note": "Identifiers of the recorded steps for every sequence of tracker calls and recordings. New runs: proved. Restart: proved for positive step identifiers; a restart with identifier 0 records step 0 twice (C34_negation)."
  },
  {
   "property": "C35",
   "status": "partial",
   "theorems": [
    "Flow.C35_status",
    "Flow.C35_queue",
    "Flow.C35_attrs",
    "Flow.C35_links_partial",
    "Flow.C35_tasks_partial",
    "Flow.C35_uri",
    "Flow.C35_negation_handler",
    "Flow.C35_negation_link"
   ],
   "note": "complete for status, pending work and the reported attribute values; for links and tasks under conditions, with proved counterexamples otherwise"
  },
  {
   "property": "C36",
   "status": "partial",
   "theorems": [
    "Flow.C36_tasks_partial",
    "Flow.C36_links_partial",
    "Flow.C36_status_partial",
    "Flow.C36_attrs_partial",
    "Flow.C36_uri_partial",
    "Flow.C36_negation_attrs",
    "Flow.C36_negation_attr_case",
    "Flow.C36_negation_deleted",
    "Flow.C36_negation_queue_lost",
    "Flow.C36_negation_queue_order",
    "Flow.C36_negation_queue_finished",
    "Flow.C36_negation_input_changed",
    "Flow.C36_negation_subflow",
    "Flow.C36_negation_subflow_status"
   ],
   "note": "statuses of present tasks, links and the flow proved for flows without subflows; the code violates the rest, each violation proved"
  },
  {
   "property": "C37",
   "status": "partial",
   "theorems": [
    "Flow.C37_top_partial",
    "Flow.C37_negation"
   ],
   "note": "status, attributes, tasks and links of the top-level flow proved for every reachable state; the code omits pending work and subflows, proved"
  },
  {
   "property": "C38",
   "status": "partial",
   "theorems": [
    "Flow.C38_recorded",
    "Flow.C38_names",
    "Flow.C38_initialised_partial",
    "Flow.C38_negation"
   ],
   "note": "everything but the rejection of unknown names, which the code does not do; that is proved"
  },
  {
   "property": "C39",
   "status": "proved",
   "theorems": [
    "Flow.C39_stable",
    "Flow.C39_once",
    "Flow.C39_failure"
   ],
   "note": "All interleavings of any number of goroutines, arbitrary provider results including panics. Flow manager only; res:// flows are looked up elsewhere."
  },
  {
   "property": "C40",
   "status": "partial",
   "theorems": [
    "Flow.C40_accepted_partial",
    "Flow.C40_stable_partial",
    "Flow.C40_definition_partial",
    "Flow.C40_valid_partial",
    "Flow.C40_negation"
   ],
   "note": "Proved for explicit task types and registration histories without nil behaviors and unnamed models, at the time of acceptance and after later plain registrations. False otherwise (C40_negation): a task without a type is always accepted."
  },
  {
   "property": "C41",
   "status": "partial",
   "theorems": [
    "Flow.C41_never_called",
    "Flow.C41_exception_attempt",
    "Flow.C41_exception",
    "Flow.C41_outputs",
    "Flow.C41_negation"
   ],
   "note": "Proved over all executions for the names under which the code looks for skip (task) and mock (flow-task) marks. A mark under the other form is ignored (C41_negation). Mocked outputs and exceptions apply when input mapping and validation succeed."
  },
  {
   "property": "C42",
   "status": "proved",
   "theorems": [
    "Flow.C42_once"
   ],
   "note": "All interleavings of any number of goroutines, any graph, any link decisions; goroutine machine in Model/Concurrent. Putting an item on the queue again by execTask itself (repeat/wait) is a different event and not counted. Subflow instances, which have no lock in the code, are outside the machine."
  },
  {
   "property": "C43",
   "status": "partial",
   "theorems": [
    "Flow.C43_progress_partial",
    "Flow.C43_returns_partial",
    "Flow.C43_negation",
    "Flow.C43_negation_case",
    "Flow.C43_update_partial",
    "Flow.C43_negation_update"
   ],
   "note": "False as stated: entering a successor that is skipped makes the goroutine take the lock it already holds (C43_negation, C43_negation_case), and UpdateAttrs locks twice in concurrent mode (C43_negation_update). Proved: without skipped successors there is always progress and enterTasks returns."
  },
  {
   "property": "C44",
   "status": "partial",
   "theorems": [
    "Flow.C44_waits_partial",
    "Flow.C44_once_partial",
    "Flow.C44_negation",
    "Flow.C44_negation_skipped"
   ],
   "note": "False as stated: a predecessor that finishes after the joining task was executed and released enters it again and the flow stays active for ever (C44_negation); a joining task can be skipped although a link to it is followed, because a link that is followed is first marked as not followed (C44_negation_skipped). Proved: it becomes ready only when all incoming links are decided and one is followed, and before the start of the error handler it becomes ready or is skipped at most once. That one task instance is queued at most once is C42."
  },
  {
   "property": "C45",
   "status": "partial",
   "theorems": [
    "Flow.C45_error_not_false_partial",
    "Flow.C45_panic_is_false",
    "Flow.C45_negation"
   ],
   "note": "errors proved; for panics the code violates the property"
  },
  {
   "property": "C46",
   "status": "partial",
   "theorems": [
    "Flow.C46_with_error_link",
    "Flow.C46_without_error_link",
    "Flow.C46_in_handler_partial",
    "Flow.C46_names_the_task",
    "Flow.C46_negation"
   ],
   "note": "Proved for failures of activity calls with and without error link, and inside an error handler. Disproved: a task with an error link that fails in its input mapper stores no flow-wide error object."
  },
  {
   "property": "C47",
   "status": "proved",
   "theorems": [
    "Flow.C47_queue_log",
    "Flow.C47_pending",
    "Flow.C47_step",
    "Flow.C47_executes_one"
   ],
   "note": ""
  },
  {
   "property": "C48",
   "status": "partial",
   "theorems": [
    "Flow.C48_read_partial",
    "Flow.C48_read_names_partial",
    "Flow.C48_negation"
   ],
   "note": "Proved if task identifiers have no dots, or if output names have none. False otherwise (C48_negation)."
  },
  {
   "property": "C49",
   "status": "partial",
   "theorems": [
    "Flow.C49_chosen_partial",
    "Flow.C49_negation"
   ],
   "note": "The choice of mappers is proved, but the mappings of a patch never become mappers: C49_negation shows that for every patch from outside the definition's mappers are used."
  },
  {
   "property": "C50",
   "status": "partial",
   "theorems": [
    "Flow.C50_plain_partial",
    "Flow.C50_negation"
   ],
   "note": "Plain content is parsed as it is. No gzip file is recognised, nothing is ever decompressed, and short files crash (C50_negation)."
  },
  {
   "property": "C51",
   "status": "proved",
   "theorems": [
    "Flow.C51_same",
    "Flow.C51_run"
   ],
   "note": "The option has no effect in the code because the named result of Skip hides the package variable; hence both settings give the same run."
  },
  {
   "property": "C52",
   "status": "partial",
   "theorems": [
    "Flow.C52_read_partial",
    "Flow.C52_read_doWhile_partial",
    "Flow.C52_rejected",
    "Flow.C52_rejected_value",
    "Flow.C52_task_partial",
    "Flow.C52_negation",
    "Flow.C52_negation_types"
   ],
   "note": "Documented forms are read as documented and unusable settings are rejected. The clause on invalid combinations is false: the kind of the task is not compared with its loop settings (C52_negation)."
  },
  {
   "property": "C53",
   "status": "partial",
   "theorems": [
    "Flow.C53_unique_partial",
    "Flow.C53_negation"
   ],
   "note": "For every document: identifiers of subflows started after the restore are distinct, positive, not those of restored subflows, and restored subflows are kept. False for subflows that had ended before the instance was written: their identifiers are given out again (C53_negation)."
  },
  {
   "property": "C54",
   "status": "partial",
   "theorems": [
    "Flow.C54_refused",
    "Flow.C54_first",
    "Flow.C54_result_partial",
    "Flow.C54_steps",
    "Flow.C54_definition",
    "Flow.C54_same_partial",
    "Flow.C54_concurrent_partial",
    "Flow.C54_concurrent_truth_partial",
    "Flow.C54_concurrent_same",
    "Flow.C54_concurrent_limit",
    "Flow.C54_concurrent_delivers",
    "Flow.C54_negation_limit",
    "Flow.C54_negation_called",
    "Flow.C54_negation_dies",
    "Flow.C54_negation_id",
    "Flow.C54_negation_inputs",
    "Flow.C54_negation_concurrent"
   ],
   "note": "Proved for sequential mode: when a package is refused, when a first result is delivered, which flow is executed, exactly one final result unless the flow fails with the last allowed step (C54_negation_limit) or ends unfinished, and that the flow is executed like every other one as long as no called flow fails. If a called flow fails no result is ever delivered (C54_negation_called) or the process ends (C54_negation_dies), because the instance has no recorder. The first result carries a method value instead of the identifier (C54_negation_id) and mapping errors are dropped (C54_negation_inputs). With concurrent task execution, for flows without called flows: at most one result unless the limit is exceeded, every result is true when it is delivered, and after the error of the limit a second result can follow (C54_negation_concurrent)."
  },
  {
   "property": "C55",
   "status": "proved",
   "theorems": [
    "Flow.C55_task_events_in_order"
   ],
   "note": "For every reachable state and every event announced."
  },
  {
   "property": "C56",
   "status": "partial",
   "theorems": [
    "Flow.C56_started_first_partial",
    "Flow.C56_at_most_once_partial",
    "Flow.C56_once_partial",
    "Flow.C56_negation"
   ],
   "note": "Started is first and announced once, afterwards only ends are announced. The end is announced at most as often as the flow has end tasks, and exactly once when a flow with one end task is done (covered flows without unhandled errors and explicit returns). That it is announced at most once in general is false: a flow with two skipped successors is announced Completed twice."
  },
  {
   "property": "C57",
   "status": "partial",
   "theorems": [
    "Flow.C57_subflow_host_partial",
    "Flow.C57_only_failed",
    "Flow.C57_negation_flow",
    "Flow.C57_negation_task"
   ],
   "note": "Holds for tasks whose subflow failed; only Failed events carry an error. For flows it is false in general (the error is stored after the event was posted), for tasks with a failing activity too."
  },
  {
   "property": "C58",
   "status": "partial",
   "theorems": [
    "Flow.C58_completed_reports_all_partial",
    "Flow.C58_outputs_only_completed_partial",
    "Flow.C58_returned_partial",
    "Flow.C58_negation_output",
    "Flow.C58_negation_return"
   ],
   "note": "Every attribute is reported exactly once and outputs only by Completed events; but the outputs reported are not the data returned (two counterexamples)."
  },
  {
   "property": "C59",
   "status": "partial",
   "theorems": [
    "Flow.C59_parent_partial",
    "Flow.C59_negation"
   ],
   "note": "Holds for the top-level flow and for subflows started by it. False for subflows of subflows: the event names the top-level flow."
  },
  {
   "property": "C60",
   "status": "partial",
   "theorems": [
    "Flow.C60_declared_values_partial",
    "Flow.C60_negation_started"
   ],
   "note": "The event reports what the task holds when it is posted, for all metadata. A Started event is posted before the inputs are mapped, so it does not report them."
  },
  {
   "property": "C61",
   "status": "partial",
   "theorems": [
    "Flow.C61_never_called",
    "Flow.C61_bad_inputs",
    "Flow.C61_mapping_error",
    "Flow.C61_bad_outputs_partial",
    "Flow.C61_negation"
   ],
   "note": "Inputs: the activity of a task with unacceptable inputs is never called in any execution, and the task fails. Outputs: proved for tasks that do not wait. The full claim is false for tasks that wait (subflow or asynchronous activity): their outputs are not validated when they are resumed (C61_negation)."
  },
  {
   "property": "C62",
   "status": "proved",
   "theorems": [
    "Flow.C62_links",
    "Flow.C62_tasks",
    "Flow.C62_determined",
    "Flow.C62_statuses",
    "Flow.C62_each_evaluation",
    "Flow.C62_no_evaluation",
    "Flow.C62_subflows",
    "Flow.C62_named",
    "Flow.C62_loop"
   ],
   "note": "For all executions: links, subflows, names, and the tasks as the list of all evaluations that ended (C62_tasks). For flows without loop tasks also equal to the history of task statuses (C62_statuses); loop tasks are marked completed or failed more than once per execution although they are reported once (C62_loop). Copied inputs, outputs and error texts are not modelled."
  },
  {
   "property": "C63",
   "status": "partial",
   "theorems": [
    "Flow.C63_transparent_partial",
    "Flow.C63_never_completes",
    "Flow.C63_negation"
   ],
   "note": "False in the code: with an interceptor without a coverage object the first task that ends panics, so no flow without subflows completes. With a coverage object the recording does not touch the state; this holds by construction of the model (entries are a function of the state)."
  },
  {
   "property": "C64",
   "status": "partial",
   "theorems": [
    "Flow.C64_flags_partial",
    "Flow.C64_negation",
    "Flow.C64_negation_late"
   ],
   "note": "Flagged links, and flagged tasks of the started flow, belong to the main graph. False in the code for tasks of subflows and for main tasks that run after the error handler was started."
  },
  {
   "property": "C65",
   "status": "proved",
   "theorems": [
    "Flow.C65_handler_after_start",
    "Flow.C65_once"
   ],
   "note": "Invariant over all reachable states."
  },
  {
   "property": "C66",
   "status": "proved",
   "theorems": [
    "Flow.C66_called",
    "Flow.C66_resumed"
   ],
   "note": "The activity fails at every call (returned error or panic), the subflow is unknown, or the asynchronous activity fails when resumed. Interceptors that mock the task are excluded (they replace the activity)."
  },
  {
   "property": "C67",
   "status": "partial",
   "theorems": [
    "Flow.C67_waits_partial",
    "Flow.C67_negation"
   ],
   "note": "Holds when the activity is called; false when it is resumed: the answer 'not finished' of a resumed activity is ignored and the task is done."
  },
  {
   "property": "C68",
   "status": "proved",
   "theorems": [
    "Flow.C68_read",
    "Flow.C68_configured",
    "Flow.C68_rejected"
   ],
   "note": "Coercions and the expression compiler are parameters (core library); CoreOk says that they keep integers and objects as they are."
  },
  {
   "property": "C69",
   "status": "proved",
   "theorems": [
    "Flow.C69_order",
    "Flow.C69_ready"
   ],
   "note": "All events of the instance are in order in every interleaving of the concurrent model."
  },
  {
   "property": "C70",
   "status": "partial",
   "theorems": [
    "Flow.C70_completed_partial",
    "Flow.C70_negation"
   ],
   "note": "Refuted: the flow completes although a followed link leads to a task that has not been entered yet. Partial: at completion all tasks of the task table have ended, or an activity returned explicitly."
  },
  {
   "property": "C71",
   "status": "partial",
   "theorems": [
    "Flow.C71_over_partial",
    "Flow.C71_negation",
    "Flow.C71_negation_twice",
    "Flow.C71_negation_handler"
   ],
   "note": "Refuted: completed can become failed, completion can be announced twice, the error handler can start without its tasks being executed. Partial: never active again, no work item is taken."
  },
  {
   "property": "C72",
   "status": "partial",
   "theorems": [
    "Flow.C72_tree_partial",
    "Flow.C72_before_handler_partial",
    "Flow.C72_negation"
   ],
   "note": "Proved until the error handler starts, for all well-formed flows (C72_before_handler_partial; without error handler always, C73), and with an error handler if each task can be entered in one way only. False in general: if the error handler starts while two predecessors enter a joining task, that task is executed twice (C72_negation)."
  },
  {
   "property": "C73",
   "status": "proved",
   "theorems": [
    "Flow.C73_once"
   ],
   "note": "WellFormed says that task and link ids are distinct and that links connect tasks of the flow; duplicates and dangling links are what C30 and C29 are about. In the model the activity outcome and the link outcomes are arbitrary labels; goroutine steps interleave at the lock, at status changes of links and at the completion test."
  },
  {
   "property": "C74",
   "status": "proved",
   "theorems": [
    "Flow.C74_not_lost"
   ],
   "note": "For every interleaving. That all goroutines have finished excludes the self-deadlock of C43. Failure is announced; it may follow a completion (C71)."
  },
  {
   "property": "C75",
   "status": "proved",
   "theorems": [
    "Flow.C75_no_lost_join",
    "Flow.C75_all_end"
   ],
   "note": "For every interleaving. That all goroutines have finished excludes the self-deadlock of C43; completion is excluded because it may come early (C70). The flow need not complete afterwards (C44_negation)."
  },
  {
   "property": "C76",
   "status": "partial",
   "theorems": [
    "Flow.C76_applied_partial",
    "Flow.C76_told_partial",
    "Flow.C76_only_settings",
    "Flow.C76_invalid",
    "Flow.C76_logged",
    "Flow.C76_negation_error",
    "Flow.C76_negation_order",
    "Flow.C76_negation_first",
    "Flow.C76_negation_panic"
   ],
   "note": "Proved for descriptions that fit (distinct tasks, each with an activity, settings that can be resolved); always: nothing but settings changes, bytes that are no description are rejected, errors of activities are logged. Refuted otherwise: a setting that cannot be resolved is lost, the outcome depends on the order of a Go map, the caller gets no error; a task without settings ignores new ones; a task without activity is a nil pointer dereference."
  },
  {
   "property": "C77",
   "status": "partial",
   "theorems": [
    "Flow.C77_main_partial",
    "Flow.C77_negation_handler",
    "Flow.C77_negation_panic"
   ],
   "note": "Proved for the tasks of the flow if each has an activity. Refuted: activities of the error handler are never cleaned up; a task without activity is a nil pointer dereference."
  },
  {
   "property": "C78",
   "status": "proved",
   "theorems": [
    "Flow.C78_inputs",
    "Flow.C78_outputs",
    "Flow.C78_rejects"
   ],
   "note": "Conversions, expression test, mappers, schemas and the registry are parameters."
  },
  {
   "property": "C79",
   "status": "proved",
   "theorems": [
    "Flow.C79_no_skip",
    "Flow.C79_progress",
    "Flow.C79_all_done"
   ],
   "note": "For all interleavings before the error handler is started; flows without subflows. Flows with conditions: see C43 and C44 (refuted)."
  },
  {
   "property": "C80",
   "status": "proved",
   "theorems": [
    "Flow.C80_bound",
    "Flow.C80_ends"
   ],
   "note": "For all interleavings before the error handler is started; flows without subflows. Termination of the activities themselves is assumed (an evaluation is one step)."
  },
  {
   "property": "C81",
   "status": "proved",
   "theorems": [
    "Flow.C81_accepted",
    "Flow.C81_accepts",
    "Flow.C81_settings"
   ],
   "note": "Conversions, expression test, mappers, schemas, factories, aliases and the registry are parameters. The converse (accepts) is stated for factories and mappers that accept every input."
  },
  {
   "property": "C82",
   "status": "proved",
   "theorems": [
    "Flow.C82_changes",
    "Flow.C82_kept",
    "Flow.C82_mapped",
    "Flow.C82_available"
   ],
   "note": "All executions. An evaluation that ends without finishing the task (waiting, failed, an iterator without further element) stores nothing by its mapping; a resumed asynchronous activity that is still unfinished is treated as done by the code without applying the mapping and is excluded from C82_mapped and C82_available. The error attributes _E and _E.<task> can be written by the engine in the same step."
  },
  {
   "property": "C83",
   "status": "proved",
   "theorems": [
    "Flow.C83_activity",
    "Flow.C83_activity_unset",
    "Flow.C83_error",
    "Flow.C83_iteration",
    "Flow.C83_iteration_do_while",
    "Flow.C83_iteration_outside",
    "Flow.C83_accumulated",
    "Flow.C83_flowctx",
    "Flow.C83_flowctx_subflow"
   ],
   "note": "Path expressions below a reference are a parameter. A failed task without error link inside the error handler of a called flow is not covered by C83_error: the error is handed to the caller."
  },
  {
   "property": "C84",
   "status": "proved",
   "theorems": [
    "Flow.C84_only",
    "Flow.C84_call",
    "Flow.C84_data_flow"
   ],
   "note": "C84_only covers every call, including retries and iterations; C84_call and C84_data_flow additionally exhibit the call, for tasks without retry. A failing mapping leaves the inputs as they are (simplification)."
  },
  {
   "property": "C85",
   "status": "partial",
   "theorems": [
    "Flow.C85_start_partial",
    "Flow.C85_starts",
    "Flow.C85_restart",
    "Flow.C85_needs_state",
    "Flow.C85_resume",
    "Flow.C85_restart_unknown",
    "Flow.C85_negation_flow",
    "Flow.C85_negation_resource",
    "Flow.C85_negation_resume",
    "Flow.C85_negation_op"
   ],
   "note": "Proved for all worlds and inputs: identifier, attributes, recorder, start, restart, resume in memory, missing state. The requested flow is executed only if the options name no other flow or neither is a resource; restored instances cannot be resumed and unknown operations panic (negations)."
  },
  {
   "property": "C86",
   "status": "partial",
   "theorems": [
    "Flow.C86_start_partial",
    "Flow.C86_restart",
    "Flow.C86_negation_data",
    "Flow.C86_negation_resume"
   ],
   "note": "Start and restart requests proved for all requests; data are ignored if there are attributes, and no saved instance is ever resumed (negations). The HTTP layer is not modelled."
  },
  {
   "property": "C87",
   "status": "partial",
   "theorems": [
    "Flow.C87_started",
    "Flow.C87_result",
    "Flow.C87_negation_default"
   ],
   "note": "Identifier, inputs, event, independence and the result of the task proved for all callers and called flows; the declared defaults of the called flow are lost (negation). The runner that executes the detached instance is not modelled."
  },
  {
   "property": "C88",
   "status": "partial",
   "theorems": [
    "Flow.C88_continues_partial",
    "Flow.C88_at_rest_partial",
    "Flow.C88_plain_partial",
    "Flow.C88_tester_partial",
    "Flow.C88_negation_loop",
    "Flow.C88_negation_result",
    "Flow.C88_negation_handler",
    "Flow.C88_negation_names",
    "Flow.C88_negation_namesake"
   ],
   "note": "Proved by simulation for every reachable state in which no loop, returned result, error handler or subflow is in progress, for all later steps, and for all activities, mappers and link conditions that depend only on the data of the flow and the task. For acyclic flows of plain tasks (no loop, no subflow) that condition is proved to hold in every state between two steps in which no error went unhandled, nothing was returned and no asynchronous activity is waiting (C88_at_rest_partial, C88_plain_partial). The code violates the property for loops, returned results and error handlers in progress (negations). Not proved: flows with subflows in progress (their restart fails, see C33).  Negated also for tasks of the error handler whose ids are used in the main flow."
  },
  {
   "property": "C89",
   "status": "proved",
   "theorems": [
    "Flow.C89_never_executed"
   ],
   "note": "For every reachable state of every flow whose link identifiers are distinct (which NewDefinition guarantees, see C30): no event of the trace executes or skips a task on or behind a cycle, in the main flow and in the error handler."
  },
  {
   "property": "C90",
   "status": "partial",
   "theorems": [
    "Flow.Srv.C90_wait_partial",
    "Flow.Srv.C90_running_partial",
    "Flow.Srv.C90_stop_partial",
    "Flow.Srv.C90_bounded_partial",
    "Flow.Srv.C90_start_partial",
    "Flow.Srv.C90_ends_partial",
    "Flow.Srv.C90_once_partial",
    "Flow.Srv.C90_admitted_partial",
    "Flow.Srv.C90_isStarted_partial",
    "Flow.Srv.C90_notStarted_partial",
    "Flow.Srv.C90_timeout_partial",
    "Flow.Srv.C90_negation_restart",
    "Flow.Srv.C90_negation_isStarted",
    "Flow.Srv.C90_negation_later"
   ],
   "note": "Proved for all interleavings: success of WaitStop implies a successful Stop before and no request in progress; connections only while running; at most 50000 requests; the first start works; waiting ends when the requests are finished, also after accepting failed. False in the code: a second start, IsStarted after a stop, and requests on connections that stay open are processed after WaitStop succeeded."
  },
  {
   "property": "C91",
   "status": "proved",
   "theorems": [
    "Flow.C91_identified"
   ],
   "note": "For every reachable state; task identifiers of a graph are assumed distinct."
  },
  {
   "property": "C92",
   "status": "partial",
   "theorems": [
    "Flow.C92_same",
    "Flow.C92_task_partial",
    "Flow.C92_result",
    "Flow.C92_attempts",
    "Flow.C92_resumed",
    "Flow.C92_parent",
    "Flow.C92_flow_partial",
    "Flow.C92_top_partial",
    "Flow.C92_negation_twice",
    "Flow.C92_negation_lost",
    "Flow.C92_negation_flow_twice",
    "Flow.C92_negation_flow_lost",
    "Flow.C92_negation_stalled"
   ],
   "note": "Proved: tracing changes nothing; spans of non-iterator tasks are finished at most once, and exactly once unless the task waits or was entered again while it waited; each attempt to evaluate an activity has a span of its own, finished with its error if it is retried, the newest one with the result of the evaluation; nesting; one span per flow instance whose ends without error equal its completions; the span of the top-level flow ends with the run. Missing because the code violates it: doubled iterators, re-entered waiting tasks, flows completed twice, failures in a handler link, stalled flows (negations). Not modelled: failing tracers, restored instances (tags: C112, C113)."
  },
  {
   "property": "C93",
   "status": "partial",
   "theorems": [
    "Flow.C93_same",
    "Flow.C93_evaluation_partial",
    "Flow.C93_resumed",
    "Flow.C93_idle",
    "Flow.C93_interval",
    "Flow.C93_negation_last",
    "Flow.C93_negation_called"
   ],
   "note": "Proved: the pauses of every evaluation, first and resumed, as attempts separated by the interval; loops; nothing else pauses; equal intervals. False for iterators: they also pause after the last round, and before a called flow is executed."
  },
  {
   "property": "C94",
   "status": "partial",
   "theorems": [
    "Flow.C94_same",
    "Flow.C94_start",
    "Flow.C94_current",
    "Flow.C94_steps_partial",
    "Flow.C94_end_partial",
    "Flow.C94_concurrent_same",
    "Flow.C94_concurrent_partial",
    "Flow.C94_concurrent_end",
    "Flow.C94_negation_limit",
    "Flow.C94_negation_origin",
    "Flow.C94_negation_twice",
    "Flow.C94_negation_stalled",
    "Flow.C94_negation_concurrent",
    "Flow.C94_negation_concurrent_status"
   ],
   "note": "Proved: the run does not depend on the recorder; exactly one start record, first; between steps the last record is the present state and every step has a record; exactly one record per step while no called flow fails; exactly one end record, last, with the final status and the delivered outputs, unless the step limit is reached. Violated by the code: step limit (no end record), stalled flows (status Started), original identifier missing at the end, a state recorded within the step in which a called flow fails. With concurrent task execution (new runs of flows without called flows) the start, the state before the first item and the end are recorded once and in this order, no state after a step is ever recorded (C94_negation_concurrent), and the status recorded at the end can contradict the delivered result (C94_negation_concurrent_status). Not modelled: times, names of user, application and host."
  },
  {
   "property": "C95",
   "status": "partial",
   "theorems": [
    "Flow.Iface.C95_exclusive",
    "Flow.Iface.C95_once",
    "Flow.Iface.C95_settled",
    "Flow.Iface.C95_alone",
    "Flow.Iface.C95_progress",
    "Flow.Iface.C95_negation_stale"
   ],
   "note": "Full statement in properties.jsonl. Proved for all interleavings: exclusive look-up, found at most once, what callers read, no look-up after the first answer, failures not remembered, some goroutine can always go on. Violated: a flow that is replaced later keeps the interface of the flow it replaced. Missing: fairness of the mutex (an execution that waits may be overtaken)."
  },
  {
   "property": "C96",
   "status": "partial",
   "theorems": [
    "Flow.C96_iterator",
    "Flow.C96_do_while",
    "Flow.C96_negation_budget"
   ],
   "note": "every round is tried as one round proved for all runs; that every round has the configured number of retries is false (negation with a run): the retries are counted for the whole loop"
  },
  {
   "property": "C97",
   "status": "partial",
   "theorems": [
    "Flow.C97_bound_partial",
    "Flow.C97_alone",
    "Flow.C97_plain",
    "Flow.C97_stays",
    "Flow.BoundCase.C97_negation"
   ],
   "note": "Proved: for flows without circles whose called flows have no circles and do not call each other in circles there is a bound on the number of steps that depends on the definitions only, uniformly over all environments, orders and inputs, apart from loop rounds (C97_bound_partial), as long as no task that waits or has failed starts its flow once more; for flows that call no flows without that condition (C97_alone), and without loops the bound is absolute, retries included (C97_plain). Missing: false in general, a flow in which two tasks of the called flow fail goes on for ever (C97_negation)."
  },
  {
   "property": "C98",
   "status": "partial",
   "theorems": [
    "Flow.C98_accepted_partial",
    "Flow.C98_task_partial",
    "Flow.C98_negation"
   ],
   "note": "Proved for models registered under their own name. False for a model registered as the default only: a definition that names it is rejected although it would be run by it (C98_negation)."
  },
  {
   "property": "C99",
   "status": "partial",
   "theorems": [
    "Flow.C99_unreadable",
    "Flow.C99_start",
    "Flow.C99_restart_partial",
    "Flow.C99_negation_restart",
    "Flow.C99_negation_resume"
   ],
   "note": "Proved for unreadable requests, start requests, and restart requests with a saved instance whose tasks the flow has or whose flow is not known. False for restarts without saved instance or with unknown tasks (no answer) and for all resumes (success without execution). That the runner of the core library returns the first result is assumed."
  }
 ]
}