{"id": "C01", "title": "A joining task waits for every incoming link", "statement": "The activity of a task that has incoming links is evaluated only after every one of its incoming links has been decided (followed, not followed or skipped) and at least one of them was followed. A task without incoming links may be evaluated as soon as its flow starts.", "quantifier": "every flow graph, every history of task completions, failures and skips, every order in which queued tasks are executed", "why_tests_cant": "A unit test fixes one graph and one completion order; the rule has to hold for every interleaving of predecessors.", "anchors": ["model/simple/taskbehavior.go: TaskBehavior.Enter", "instance/ind_instance.go: enterTasks, execTask"]}
{"id": "C02", "title": "A task none of whose incoming links is followed is skipped", "statement": "When all incoming links of a task are decided and none was followed, the task is reported Skipped, its activity is never evaluated, and all of its outgoing links are marked skipped so that its successors are decided as well.", "quantifier": "every flow graph and every combination of link decisions", "why_tests_cant": "The number of link-status combinations and graph shapes is unbounded; tests cover a handful.", "anchors": ["model/simple/taskbehavior.go: TaskBehavior.Enter, TaskBehavior.Skip", "instance/ind_instance.go: enterTasks, handleTaskDone"]}
{"id": "C03", "title": "Which links are followed after success", "statement": "When a task succeeds, its dependency and label links are followed, its error links are not, each expression link is followed exactly when its expression is true, and an otherwise link is followed only if the task has at least one expression link and none of them is followed. If a link expression fails, no successor is entered.", "quantifier": "every list of outgoing links in every order and every outcome of every link expression", "why_tests_cant": "The outcome space is exponential in the number of links and depends on their order in the definition.", "anchors": ["model/simple/taskbehavior.go: TaskBehavior.Done", "instance/taskinst.go: TaskInst.EvalLink"]}
{"id": "C04", "title": "Which links are followed after a failure", "statement": "When a task fails and has at least one error link, the error is handled locally: exactly its error links are followed, all its other links are not followed, the flow does not fail and the flow error handler is not started.", "quantifier": "every list of outgoing links and every error", "why_tests_cant": "Must hold for all link lists and error values.", "anchors": ["model/simple/taskbehavior.go: TaskBehavior.Error", "instance/ind_instance.go: handleTaskError"]}
{"id": "C05", "title": "Successor order is a stable priority order", "statement": "The successors entered after a task are exactly the targets of its outgoing links (none lost, none added), ordered by link class, with definition order kept inside a class, and every successor reached by a followed link comes before every successor reached by a link that is not followed.", "quantifier": "every list of outgoing links, every outcome of their expressions, both settings of the expression-priority option", "why_tests_cant": "Stability and completeness of an ordering are statements about all lists.", "anchors": ["model/simple/taskbehavior.go: getEnterCode, SortTaskEntries, TaskBehavior.Done"]}
{"id": "C06", "title": "The set of executed tasks does not depend on scheduling", "statement": "For an acyclic flow, which tasks execute is determined by the graph and by the outcome of each task and link expression alone: a task executes exactly when it has no incoming link, or a predecessor executes and follows a link to it. Two executions with the same outcomes but different scheduling execute the same tasks.", "quantifier": "every acyclic flow graph, every assignment of outcomes to tasks and links, every order of taking tasks from the work queue", "why_tests_cant": "Requires comparing all schedules of all graphs.", "anchors": ["instance/ind_instance.go: enterTasks, handleTaskDone, handleTaskError, execTask", "model/simple/taskbehavior.go", "model/simple/flowbehavior.go: Start, TaskDone"]}
{"id": "C07", "title": "Each task executes at most once per flow instance", "statement": "In an acyclic flow no task that is not configured to loop or retry has its activity evaluated more than once in the same flow instance, even if several of its predecessors finish at the same time or it is entered several times.", "quantifier": "every acyclic flow graph, all outcomes, all schedules", "why_tests_cant": "Double evaluation only appears for special combinations of graph shape and schedule.", "anchors": ["instance/ind_instance.go: enterTasks, execTask, scheduleEval"]}
{"id": "C08", "title": "Every acyclic flow finishes", "statement": "A started acyclic flow with at least one task, whose activities all return and whose errors are all handled by error links, reaches Completed after finitely many steps; it never stays Active with nothing left to execute.", "quantifier": "every acyclic flow graph, all outcomes, all schedules", "why_tests_cant": "Liveness over all graphs cannot be tested; a stall needs a particular shape.", "anchors": ["instance/ind_instance.go: DoStep, handleTaskDone, enterTasks", "instance/instance.go: releaseTask", "model/simple/flowbehavior.go: TaskDone"]}
{"id": "C09", "title": "No premature completion", "statement": "A flow that completes normally (without an explicit return) has executed every task that the graph and the link decisions require, and at the moment it is reported Completed no task that still has to execute is pending.", "quantifier": "every acyclic flow graph, all outcomes, all schedules", "why_tests_cant": "The completion test runs in the middle of cascades of skipped tasks; only an invariant over all of them shows it is never true too early.", "anchors": ["model/simple/flowbehavior.go: TaskDone", "instance/ind_instance.go: handleTaskDone"]}
{"id": "C10", "title": "A finished top-level flow stays finished", "statement": "Once a top-level flow instance has become Completed or Failed, further steps execute no activity and its status never changes again.", "quantifier": "every reachable state of every flow and every sequence of further steps", "why_tests_cant": "Ranges over all reachable states and all continuations.", "anchors": ["instance/ind_instance.go: DoStep, handleTaskDone, handleTaskError, HandleGlobalError"]}
{"id": "C11", "title": "A finished subflow stays finished", "statement": "Once a subflow has become Completed or Failed, its status never changes again, none of its activities is executed any more and the task that started it is resumed exactly once with that outcome.", "quantifier": "every reachable state of every flow with subflows and every continuation", "why_tests_cant": "Depends on leftover work of parallel branches inside the subflow.", "anchors": ["instance/ind_instance.go: DoStep, handleTaskDone, HandleGlobalError, scheduleEval"]}
{"id": "C12", "title": "Explicit return ends the flow with exactly the returned result", "statement": "If an activity calls Return(data, err), the flow instance that contains it is Completed when that task finishes, no successor of the task is entered, and the result of the flow is exactly that data and that error.", "quantifier": "every flow graph, every state in which a task calls Return, every data and error", "why_tests_cant": "Must hold whatever other branches have queued.", "anchors": ["instance/instance.go: Return, GetReturnData", "instance/ind_instance.go: handleTaskDone", "action.go: FlowAction.Run"]}
{"id": "C13", "title": "An unhandled error fails the flow with that error", "statement": "If a task of a top-level flow fails, has no error link and the flow has no error handler, the flow becomes Failed and the caller receives exactly that error; no later work is executed.", "quantifier": "every flow, every reachable state, every error", "why_tests_cant": "Ranges over all states in which the failure can occur.", "anchors": ["instance/ind_instance.go: handleTaskError, HandleGlobalError", "action.go: FlowAction.Run"]}
{"id": "C14", "title": "The error handler is started once", "statement": "If a task fails without an error link and its flow has an error handler, the start tasks of the error handler (and only those) are entered, the error is available to them, and the error handler is started at most once per flow instance.", "quantifier": "every flow with an error handler and every sequence of failures, including failures while the handler runs", "why_tests_cant": "At-most-once is a statement about all histories.", "anchors": ["instance/ind_instance.go: HandleGlobalError, handleTaskError", "instance/taskinst.go: appendErrorData", "model/simple/flowbehavior.go: StartErrorHandler"]}
{"id": "C15", "title": "A failure inside the error handler is reported", "statement": "If a task of a running error handler fails without an error link, the flow becomes Failed and the caller (or the task that started the subflow) receives the error.", "quantifier": "every flow with an error handler, every error raised while it runs, top-level flows and subflows", "why_tests_cant": "Needs failures at every point of the handler.", "anchors": ["instance/ind_instance.go: handleTaskError, HandleGlobalError, execTask", "action.go: FlowAction.Run"]}
{"id": "C16", "title": "A subflow error handler does not disturb the parent flow", "statement": "Starting the error handler of one flow instance changes neither the pending tasks nor the completion condition of any other flow instance.", "quantifier": "every flow with subflows and every failure inside a subflow", "why_tests_cant": "Interference depends on which parent branches are pending at that moment.", "anchors": ["instance/ind_instance.go: HandleGlobalError"]}
{"id": "C17", "title": "Every run delivers exactly one result", "statement": "A run started without the return-ID option calls the result handler exactly once with the final result or error before signalling done.", "quantifier": "every flow, every behaviour of its activities, every step limit", "why_tests_cant": "Ranges over all ways a run can end, including stalls.", "anchors": ["action.go: FlowAction.Run"]}
{"id": "C18", "title": "The step limit bounds a run", "statement": "A run executes at most the configured maximum number of work items, and a run stopped by the limit reports an error to the caller.", "quantifier": "every flow, every limit, both execution modes", "why_tests_cant": "Boundary behaviour for all limits and flows.", "anchors": ["action.go: FlowAction.Run", "instance/ind_instance.go: DoStepInLoop", "util/util.go: GetMaxStepCount"]}
{"id": "C19", "title": "Retry executes at most count+1 attempts", "statement": "A task configured with retryOnError count n has its activity evaluated at most n+1 times per evaluation, only retriable errors are retried, retrying stops at the first success, and the reported outcome is that of the last attempt.", "quantifier": "every retry count and every sequence of attempt outcomes", "why_tests_cant": "All outcome sequences of all lengths.", "anchors": ["model/simple/taskbehavior.go: evalActivity, TaskBehavior.PostEval", "model/simple/retry.go: getRetryData, retryEval"]}
{"id": "C20", "title": "An iterator task runs once per element, in order", "statement": "An iterator task over a count n, an array or an object evaluates its activity exactly once for every index or element, in order, exposing the right key and value to each evaluation, and then finishes; for an empty collection or a non-positive count it finishes without evaluating the activity.", "quantifier": "every collection and count, every synchronous activity that does not fail", "why_tests_cant": "All lengths; off-by-one errors at the end of the loop.", "anchors": ["model/simple/iteratorbehavior.go: Eval, IntIterator, ArrayIterator, ObjectIterator, ReflectIterator"]}
{"id": "C21", "title": "A do-while task runs once and then while its condition holds", "statement": "A do-while task evaluates its activity once and then again after each evaluation of its condition that yields true, stopping at the first false; the iteration index seen by evaluation k is k.", "quantifier": "every sequence of condition results", "why_tests_cant": "All loop lengths.", "anchors": ["model/simple/dowhilebehavior.go: Eval, evaluateCondition, updateDoWhileIndex"]}
{"id": "C22", "title": "Loops over asynchronous activities run every iteration", "statement": "An iterator or do-while task whose activity is asynchronous (for example a subflow) performs every iteration: after each asynchronous completion the next iteration starts until the loop is finished, and then the task completes.", "quantifier": "every collection and every asynchronous activity", "why_tests_cant": "Requires following the task through arbitrarily many suspend/resume rounds.", "anchors": ["model/simple/iteratorbehavior.go: PostEval, HasNext", "model/simple/dowhilebehavior.go: PostEval", "instance/ind_instance.go: execTask"]}
{"id": "C23", "title": "Accumulated loop output has one entry per iteration", "statement": "For a loop task with accumulate enabled, the accumulated output of the task is an array with exactly one entry per finished iteration, in iteration order, and earlier entries are never changed by later iterations.", "quantifier": "every number of iterations and all outputs", "why_tests_cant": "All lengths and contents.", "anchors": ["instance/taskinst.go: handleAccumulation, copyOutputs, EvalActivity, PostEvalActivity"]}
{"id": "C24", "title": "Flow instances do not share attributes", "statement": "Executing a task of one flow instance changes the attributes of that instance only; parents, children and siblings are unaffected, except that a newly started subflow receives its mapped inputs.", "quantifier": "every reachable state with any number of nested flow instances, every activity", "why_tests_cant": "Isolation is a frame property over all states.", "anchors": ["instance/instance.go: SetValue, GetValue", "instance/taskinst.go: EvalActivity, appendErrorData", "instance/util.go: StartSubFlow, applyOutputMapper"]}
{"id": "C25", "title": "A subflow's outcome reaches the task that started it", "statement": "When a subflow completes, the outputs of the task that started it become the return data of the subflow and it is resumed; when a subflow fails without a handler, the starting task is resumed and fails with the subflow's error, which then goes through that task's own error links or the parent's error handling.", "quantifier": "every parent flow, subflow, return data and error", "why_tests_cant": "Ranges over all outcomes and nesting depths.", "anchors": ["instance/ind_instance.go: handleTaskDone, HandleGlobalError, handleTaskError", "instance/taskinst.go: PostEvalActivity", "activity/subflow/activity.go: Eval"]}
{"id": "C26", "title": "Flow instance identifiers are unique", "statement": "Within one run, all flow instances (the top-level one and every subflow ever started) have pairwise different identifiers.", "quantifier": "every run and any number of subflows", "why_tests_cant": "Any number of subflows.", "anchors": ["instance/instance.go: ID", "instance/ind_instance.go: newEmbeddedInstance"]}
{"id": "C27", "title": "Caller inputs override declared defaults", "statement": "After a flow instance is started, each attribute supplied by the caller has the supplied value, each declared input that was not supplied has its declared default, and the flow context attributes (name, ID, parent) identify the instance.", "quantifier": "every flow metadata, every input map", "why_tests_cant": "All maps; includes clashes between caller inputs and reserved names.", "anchors": ["instance/ind_instance.go: startInstance"]}
{"id": "C28", "title": "Observing a flow does not change its result", "statement": "Attaching a flow event listener or a state recorder does not change the data that the flow returns.", "quantifier": "every flow metadata and every history of attribute changes", "why_tests_cant": "Requires comparing observed and unobserved runs of all flows.", "anchors": ["instance/instance.go: GetReturnData, SetStatus", "instance/ind_instance.go: GetFlowState", "instance/flowevents.go: postFlowEvent"]}
{"id": "C29", "title": "Iteration variables are local to their task", "statement": "Working data such as the current iteration is visible only through the task that owns it, is never found under ordinary attribute names, and reading or writing ordinary attributes through a task sees and changes the attributes of its flow instance.", "quantifier": "every attribute name and every scope content", "why_tests_cant": "All names and contents.", "anchors": ["instance/scopes.go: WorkingDataScope"]}
{"id": "C30", "title": "A definition has exactly the described graph", "statement": "A successfully created flow definition contains, for each task, exactly the described incoming and outgoing links in the described order; link identifiers are unique across the main flow and its error handler; and a description with a link to an unknown task is rejected.", "quantifier": "every flow description", "why_tests_cant": "All descriptions of all sizes.", "anchors": ["definition/definition_ser.go: NewDefinition, createTask, createLink", "definition/definition.go"]}
{"id": "C31", "title": "Serializing and restoring an instance preserves its state", "statement": "Restoring a serialized flow instance yields the same identifier, status, attributes, task statuses, link statuses, subflows and pending work.", "quantifier": "every reachable instance state", "why_tests_cant": "All states; queue order, missing tasks and nested instances matter.", "anchors": ["instance/instance_ser.go: MarshalJSON, UnmarshalJSON"]}
{"id": "C32", "title": "Work item identifiers stay unique across a restore", "statement": "Work items scheduled after restoring a serialized instance have identifiers different from those of the work items still pending.", "quantifier": "every reachable instance state with pending work", "why_tests_cant": "Depends on the whole history before the snapshot.", "anchors": ["instance/instance_ser.go: UnmarshalJSON", "instance/ind_instance.go: scheduleEval"]}
{"id": "C33", "title": "Restart keeps the pending work", "statement": "Restarting a restored instance keeps all pending work items, keeps their execution order, and changes the status of no task except the one that is restarted.", "quantifier": "every restored instance with any number of pending items", "why_tests_cant": "All queue contents.", "anchors": ["instance/ind_instance.go: Restart"]}
{"id": "C34", "title": "Recorded step identifiers are consecutive", "statement": "The steps recorded for one run have consecutive identifiers, each identifier is used once, and a restarted run continues with the requested step identifier.", "quantifier": "every sequence of recordings and every start step", "why_tests_cant": "All histories.", "anchors": ["instance/instance_chg.go: NewInstanceChangeTracker, ExtractStep", "instance/recorder.go: RecordState", "instance/ind_instance.go: Restart"]}
{"id": "C35", "title": "The change record is complete", "statement": "Replaying all recorded task, link, queue and status changes of a flow instance, in order, yields exactly its current tasks with their statuses, its current links with their statuses, its pending work and its flow status.", "quantifier": "every execution of every flow", "why_tests_cant": "Every state change on every path has to be recorded.", "anchors": ["instance/instance_chg.go: SimpleChangeTracker", "instance/instance.go: FindOrCreateTaskInst, releaseTask, SetStatus", "instance/ind_instance.go: HandleGlobalError"]}
{"id": "C36", "title": "A snapshot rebuilt from steps is the latest state", "statement": "Rebuilding a snapshot from the recorded steps yields for each attribute, task and link its latest recorded value and status, omits deleted tasks and links, keeps the order of pending work and leaves the input steps unchanged.", "quantifier": "every list of recorded steps", "why_tests_cant": "All lists; the bug surface is the order of merging.", "anchors": ["state/util.go: StepsToSnapshot, UpdateQueue, UpdateFlow, UpdateTasks, UpdateLinks"]}
{"id": "C37", "title": "A snapshot contains the whole instance", "statement": "A snapshot of a flow instance contains its status, attributes, tasks and links, its pending work and all of its live subflows.", "quantifier": "every reachable instance state", "why_tests_cant": "All states.", "anchors": ["instance/ind_instance.go: Snapshot, populateBaseSnapshot"]}
{"id": "C38", "title": "Recording mode decides what is recorded", "statement": "Steps are recorded exactly in the modes step, debugger and full; snapshots exactly in the modes snapshot and full; an unknown mode name is rejected when the action is initialised.", "quantifier": "every mode name", "why_tests_cant": "All strings.", "anchors": ["state/status.go: ToRecordingMode, RecordSteps, RecordSnapshot", "action.go: Initialize"]}
{"id": "C39", "title": "A flow definition is loaded once and then stable", "statement": "After a flow URI was resolved successfully once, every later resolution returns the same definition whatever the provider does; an unsuccessful resolution is not remembered and can succeed later; concurrent resolutions do not load a flow twice.", "quantifier": "every sequence of resolutions and every behaviour of the provider", "why_tests_cant": "All histories.", "anchors": ["support/manager.go: FlowManager.GetFlow"]}
{"id": "C40", "title": "Accepted task types can be executed", "statement": "If a definition with a task of a given type is accepted, the flow model used to run it provides a behavior for this type.", "quantifier": "every sequence of model registrations and every definition", "why_tests_cant": "All registration histories.", "anchors": ["model/registry.go", "model/model.go", "util/util.go: IsValidTaskType", "definition/definition_ser.go: createTask"]}
{"id": "C41", "title": "A mocked activity is not executed", "statement": "If an interceptor marks a task of a flow as mocked or skipped, the activity of that task is never evaluated; the mocked outputs become the outputs of the task, and a mocked exception makes the task fail with the given message.", "quantifier": "every interceptor and every task, every evaluation including retries and loop iterations", "why_tests_cant": "All interceptor contents.", "anchors": ["instance/util.go: applyInputInterceptor, hasOutputInterceptor, applyOutputInterceptor", "support/interceptor.go", "instance/taskinst.go: EvalActivity"]}
{"id": "C42", "title": "Concurrent mode schedules a ready task once", "statement": "With concurrent task execution enabled, a task instance that becomes ready is put on the work queue at most once by its predecessors, however their completions interleave.", "quantifier": "every interleaving of any number of goroutines finishing predecessors", "why_tests_cant": "Interleavings cannot be enumerated by tests.", "anchors": ["instance/ind_instance.go: enterTasks, scheduleEval"]}
{"id": "C43", "title": "Concurrent mode does not deadlock on skipped tasks", "statement": "With concurrent task execution enabled, entering successors of a finished task returns, also if successors are skipped.", "quantifier": "every graph and every link decision", "why_tests_cant": "A self-deadlock shows up as a hang only for graphs with skipped tasks.", "anchors": ["instance/ind_instance.go: enterTasks, handleTaskDone", "instance/instance.go: UpdateAttrs, SetValue"]}
{"id": "C44", "title": "Concurrent mode: simultaneous predecessors do not corrupt a join", "statement": "With concurrent task execution enabled, when several predecessors of a joining task finish at the same time, the joining task is executed once and the flow can still complete.", "quantifier": "every interleaving of the predecessors and of the joining task", "why_tests_cant": "Depends on a narrow race window.", "anchors": ["instance/ind_instance.go: enterTasks, handleTaskDone, DoStepInLoop", "instance/instance.go: FindOrCreateTaskInst, releaseTask"]}
{"id": "C45", "title": "A failing link expression is never treated as false", "statement": "If evaluating a link expression fails in any way (error or panic), the flow goes to error handling; it does not continue as if the expression were false.", "quantifier": "every expression outcome on every link", "why_tests_cant": "Failure paths of arbitrary expressions.", "anchors": ["instance/taskinst.go: EvalLink", "model/simple/taskbehavior.go: Done", "instance/ind_instance.go: handleTaskDone"]}
{"id": "C46", "title": "Error details available to handlers are those of the failing task", "statement": "After a task fails, the error object stored for that task contains its identifier or name, the error message, and for activity errors the code and data; the flow-wide error object of a flow that is not yet handling an error is the same object.", "quantifier": "every error value of every kind, every task", "why_tests_cant": "All error values.", "anchors": ["instance/taskinst.go: getErrorObject, appendErrorData, setTaskError, EvalActivity"]}
{"id": "C47", "title": "Work items are numbered in order and never lost", "statement": "Work items get strictly increasing identifiers, each step of an Active flow executes exactly one pending item, and an item leaves the queue only by being executed.", "quantifier": "every reachable state and every step", "why_tests_cant": "All reachable states.", "anchors": ["instance/ind_instance.go: scheduleEval, DoStep, NewWorkItem"]}
{"id": "C48", "title": "Activity outputs of different tasks do not overwrite each other", "statement": "The outputs of a finished task are stored so that no other task's outputs can overwrite them and each declared output can be read back under the task's name.", "quantifier": "every pair of tasks and output names", "why_tests_cant": "All identifiers, including those containing dots.", "anchors": ["definition/mapper.go: defaultActivityOutputMapper.Apply", "definition/resolve.go: ActivityResolver"]}
{"id": "C49", "title": "A patch replaces the mappings of a task", "statement": "If a patch defines input or output mappings for a task, these mappings are used instead of the mappings of the definition.", "quantifier": "every patch and every task", "why_tests_cant": "All patches.", "anchors": ["support/patch.go", "instance/util.go: applyInputMapper, applyOutputMapper"]}
{"id": "C50", "title": "Compressed flow files are recognised", "statement": "A flow file whose content is gzip-compressed is decompressed before it is parsed, and any other file is parsed as it is; no file content makes loading crash.", "quantifier": "every file content", "why_tests_cant": "All byte sequences.", "anchors": ["support/manager.go: BasicRemoteFlowProvider.GetFlow"]}
{"id": "C51", "title": "The skip-propagation option does not change which tasks execute", "statement": "For every setting of the skip-propagation option the same tasks are executed, the same tasks are reported skipped and the flow ends in the same status.", "quantifier": "both settings of the option, every graph, all outcomes", "why_tests_cant": "Needs comparison of both modes on all graphs.", "anchors": ["model/simple/taskbehavior.go: Skip, propagateSkip", "instance/ind_instance.go: propagateSkip, handleTaskDone", "support/env.go: GetPropagateSkip"]}
{"id": "C52", "title": "Loop configuration is read as documented", "statement": "The loop settings of a task are read so that an iterate or condition setting yields a loop of the right kind, accumulate and delay have their documented defaults, and invalid combinations are rejected.", "quantifier": "every combination of settings", "why_tests_cant": "All combinations.", "anchors": ["definition/definition_ser.go: getLoopCfg, getLoopCfgDef, getRetryOnErrCfg, createTask"]}
{"id": "C53", "title": "Subflow identifiers stay unique after a restore", "statement": "Subflows that are started after a flow instance was restored from its serialized form have identifiers different from each other, from all restored subflows and from all subflows that the instance had started before.", "quantifier": "every serialized document, every reachable state it was written from, any number of subflows started afterwards", "why_tests_cant": "Depends on the history before the instance was written, in particular on which subflows had ended in which order.", "anchors": ["instance/instance_ser.go: IndependentInstance.UnmarshalJSON", "instance/ind_instance.go: newEmbeddedInstance, startSubFlow"]}
{"id": "C54", "title": "An on-demand flow delivers its result once", "statement": "A flow that is delivered together with the event is refused with an error if it is missing, unreadable or cannot be built, and nothing is run. Otherwise the caller first receives the identifier of the instance, unless the flow replies explicitly (its description says so or an activity of it replies or returns), and then exactly one result: the return data and error of the completed flow, the error of the failed flow, or the step-limit error.", "quantifier": "every package, every flow, all outcomes, every step limit", "why_tests_cant": "The combination of outcome, step limit and reply behaviour of all flows cannot be enumerated.", "anchors": ["ondemand/action.go: Run, ApplyMappings", "definition/definition_ser.go: NewDefinition, createTask"]}
{"id": "C55", "title": "Task events come in order", "statement": "A listener for task events hears of a task as Started or Skipped only after it heard of it as Scheduled, and as Completed, Failed or Waiting only after it heard of it as Started. No other events of tasks are announced.", "quantifier": "every flow, every sequence of activity results and link outcomes, every task, every event", "why_tests_cant": "A test sees the event sequences of the flows it runs; the claim is about all flows, including loops, retries, subflows, error handlers and joins.", "anchors": ["instance/taskevents.go: postTaskEvent, convertTaskStatus", "instance/taskinst.go: SetStatus", "model/simple/taskbehavior.go: Enter, Done, Skip, Error"]}
{"id": "C56", "title": "Every flow instance announces one start and one end", "statement": "The first event of every flow instance (top-level flow or subflow) is Started, announced once; it is followed by at most one event that announces its end, Completed or Failed.", "quantifier": "every flow, every sequence of activity results and link outcomes, every flow instance", "why_tests_cant": "Whether an end is announced twice depends on the order in which skipped, failing and completing branches are handled; the combinations cannot be enumerated.", "anchors": ["instance/flowevents.go: postFlowEvent", "instance/instance.go: SetStatus", "instance/ind_instance.go: handleTaskDone, handleTaskError, HandleGlobalError, enterTasks"]}
{"id": "C57", "title": "Failed events carry the error", "statement": "The Failed event of a task carries the error with which the task failed, and the Failed event of a flow carries the error with which the flow failed.", "quantifier": "every flow, every failing activity, link expression or subflow, every flow instance", "why_tests_cant": "The error reaches the event only if it is stored before the status changes, on every failure path; a test covers single paths.", "anchors": ["instance/flowevents.go: postFlowEvent", "instance/taskevents.go: postTaskEvent", "instance/ind_instance.go: handleTaskError, HandleGlobalError"]}
{"id": "C58", "title": "Flow events report inputs and outputs", "statement": "The Completed event of a flow reports as output the data that the flow returns, and as input its other attributes; every attribute is reported exactly once. No other event reports outputs.", "quantifier": "every flow, all attributes, every return data", "why_tests_cant": "Depends on which attributes and return data exist at the time of the event, for all flows.", "anchors": ["instance/flowevents.go: postFlowEvent", "instance/instance.go: GetReturnData, Return"]}
{"id": "C59", "title": "Flow events name the parent flow", "statement": "The events of a subflow name as parent flow (name and identifier) the flow instance whose task started it; events of the top-level flow name no parent.", "quantifier": "every flow instance of every reachable state, any depth of nesting", "why_tests_cant": "Holds or fails depending on the depth of nesting, which is unbounded.", "anchors": ["instance/flowevents.go: postFlowEvent", "instance/ind_instance.go: newEmbeddedInstance, startInstance"]}
{"id": "C60", "title": "Task events report the data of the task", "statement": "A task event reports exactly the declared inputs of the activity, each with the value with which the activity is evaluated or else its default; a Completed event reports the declared outputs in the same way, other events no outputs.", "quantifier": "every task, every activity metadata, all input and output values", "why_tests_cant": "Ranges over all metadata and all values, and over the time at which the event is posted.", "anchors": ["instance/taskevents.go: postTaskEvent", "instance/taskinst.go: EvalActivity"]}
{"id": "C61", "title": "A task with unacceptable data fails", "statement": "If the input mapping of a task fails, or the mapped inputs violate the schema declared for the task, then the activity of the task is not called and the task fails with that error. If the outputs of the activity violate the declared schema, or the output mapping fails, then the task is not completed.", "quantifier": "for all flows, tasks (basic, iterator, do-while), mappers, schemas, retry settings, interceptors and executions", "why_tests_cant": "tests use a few mappings and schemas with basic tasks; the claim concerns every attempt of every task in every execution, including retries, loop rounds, error handlers and resumed tasks", "anchors": ["instance/taskinst.go:298-447", "instance/taskinst.go:463-535", "instance/util.go:46-82"]}
{"id": "C62", "title": "Coverage reports exactly what was executed", "statement": "The coverage report of an execution lists, for every flow instance, exactly the links that were followed and the tasks whose execution completed or failed (a loop task when its last round completes or one of its rounds fails), each as often as that happened and in that order, and exactly the subflows that were started. Skipped tasks are not reported. Every entry names the flow that it is about.", "quantifier": "for all flows with error handlers, subflows and loops, all activities, all link outcomes and all schedules, at every time of the execution", "why_tests_cant": "a test compares the report of one flow and one run; the claim equates the report with the history of every execution, including errors, nested subflows and old branches beside an error handler", "anchors": ["instance/ind_instance.go:471-499", "instance/ind_instance.go:605-614", "instance/ind_instance.go:753-812", "instance/linkinst.go:36-74", "instance/util.go:353-381", "support/interceptor.go:57-67"]}
{"id": "C63", "title": "An interceptor that overrides nothing changes nothing", "statement": "Attaching an interceptor that mocks, skips and overrides nothing does not change the execution of a flow: the same tasks are executed with the same results, and the flow ends in the same way as without it.", "quantifier": "for all flows, inputs, activities, schedules and interceptors without overrides, with and without a coverage object", "why_tests_cant": "tests attach particular interceptors to particular flows; the claim compares two executions of every flow at every time", "anchors": ["support/interceptor.go:26-67", "instance/ind_instance.go:401-424", "instance/ind_instance.go:753-812", "tester/request.go:37-86"]}
{"id": "C64", "title": "Coverage tells the main flow from the error handler", "statement": "An entry of a coverage report is flagged as part of the main flow if and only if the link or task that it is about belongs to the main graph of its flow; entries about links and tasks of the error handler are not flagged.", "quantifier": "for all flows with error handlers and subflows, all executions and all entries", "why_tests_cant": "the flag depends on when an error happens and on which instance the entry is about; tests cover a handful of combinations of nesting and timing", "anchors": ["instance/ind_instance.go:753-790", "instance/linkinst.go:45-74", "support/interceptor.go:98-130"]}
{"id": "C65", "title": "Tasks of the error handler run only after the error handler was started", "statement": "No task of the error handler of a flow changes its status or has its activity called before an unhandled error started the error handler, and the error handler of a flow instance is started at most once.", "quantifier": "for all flows with error handlers and subflows, all activities and all schedules, at every time of the execution", "why_tests_cant": "tests observe single runs; the claim excludes an early or repeated start in every schedule and every nesting of subflows", "anchors": ["instance/ind_instance.go:666-751", "model/simple/flowbehavior.go:18-69", "instance/instance.go:83-101"]}
{"id": "C66", "title": "An activity that fails fails its task", "statement": "A task whose activity returns an error or panics at every call, or which is to call a subflow that does not exist, fails, however many retries are configured, and its failure is reported to task listeners; it neither completes nor keeps waiting. The same holds for a waiting task whose asynchronous activity fails when it is resumed.", "quantifier": "for all flows, all kinds of tasks (iterators while items are left), all retry settings, all failing activities and all reachable states of the execution", "why_tests_cant": "tests let particular activities fail in particular flows; the claim covers every failing activity at every call in every reachable state", "anchors": ["instance/taskinst.go:298-447", "instance/taskinst.go:463-535", "instance/util.go:353-381", "model/simple/taskbehavior.go:87-196", "model/simple/retry.go:24-73"]}
{"id": "C67", "title": "A task waits until its asynchronous activity is finished", "statement": "As long as an asynchronous activity reports that it is not finished, both when it is called and when it is resumed, its task is not done, no following task is entered and its outputs are not used.", "quantifier": "for all flows, all kinds of tasks, all asynchronous activities and all reachable states", "why_tests_cant": "whether an activity is finished depends on the activity and on the time of resumption; tests resume an activity once, when it is finished", "anchors": ["instance/taskinst.go:463-535", "model/simple/taskbehavior.go:155-196", "instance/ind_instance.go:401-468"]}
{"id": "C68", "title": "Retry settings are read as written", "statement": "The number of retries and the interval of a task are what its retryOnError setting says: a number, a number as text, or an expression that is evaluated at execution; what is left out is 0. Tasks without the setting do not retry. A flow description with retry settings that are no numbers, or with expressions that do not compile, is rejected as a whole.", "quantifier": "for all flow descriptions, all tasks of the main flow and of the error handler, all combinations of given and left out settings", "why_tests_cant": "tests load a few descriptions; the claim is about every combination of ways to write the two settings and about every position of a wrong one", "anchors": ["definition/definition_ser.go:146-193", "definition/definition_ser.go:450-507", "definition/definition.go:294-324"]}
{"id": "C69", "title": "Concurrent mode: events are in order", "statement": "With concurrent task execution enabled, whatever the interleaving of the goroutines, a task becomes ready only after it was entered, when all its incoming links are decided and one is followed; it is skipped only when all are decided and none is followed; it is done or fails only after it became ready; a link is decided only by its source task after that has finished; and a goroutine executes only tasks that became ready.", "quantifier": "every flow definition, every interleaving of any number of goroutines, every outcome of the activities", "why_tests_cant": "Interleavings cannot be enumerated by tests.", "anchors": ["instance/ind_instance.go: DoStepInLoop, execTask, handleTaskDone, enterTasks", "model/simple/taskbehavior.go: Enter, Done, Skip, Error"]}
{"id": "C70", "title": "Concurrent mode: a flow completes only when its work is done", "statement": "With concurrent task execution enabled, a flow completes only when every task that a followed link leads to has been executed, or when an activity returned explicitly.", "quantifier": "every flow definition and every interleaving", "why_tests_cant": "Depends on a narrow window between deciding the links of a task and entering its successors.", "anchors": ["instance/ind_instance.go: handleTaskDone", "model/simple/flowbehavior.go: TaskDone"]}
{"id": "C71", "title": "Concurrent mode: a finished flow stays finished", "statement": "With concurrent task execution enabled, a flow that completed or failed keeps this status, its end is announced once, and no further task is started.", "quantifier": "every flow definition and every interleaving", "why_tests_cant": "Depends on goroutines that are still running when the flow ends.", "anchors": ["instance/ind_instance.go: handleTaskDone, HandleGlobalError, DoStepInLoop", "instance/instance.go: SetStatus"]}
{"id": "C72", "title": "Concurrent mode: a task is executed at most once", "statement": "With concurrent task execution enabled, a task of a flow without cycles ends at most once, that is, it is done, fails or is skipped at most once, whatever the interleaving.", "quantifier": "every flow definition without cycles, every interleaving, every outcome of activities and links", "why_tests_cant": "Interleavings cannot be enumerated by tests.", "anchors": ["instance/ind_instance.go: enterTasks, handleTaskDone, execTask", "instance/instance.go: FindOrCreateTaskInst, releaseTask"]}
{"id": "C73", "title": "Concurrent mode: without an error handler no task is executed twice", "statement": "With concurrent task execution enabled, in a flow without error handler a task becomes ready or is skipped at most once and ends at most once, however many links lead to it and whenever its predecessors end.", "quantifier": "every flow definition without error handler whose links connect its tasks, cyclic or not; every interleaving; every outcome of activities and link expressions", "why_tests_cant": "The predecessors of a joining task race for entering it; interleavings cannot be enumerated by tests.", "anchors": ["instance/ind_instance.go: enterTasks, handleTaskDone, handleTaskError, execTask", "instance/instance.go: FindOrCreateTaskInst, releaseTask"]}
{"id": "C74", "title": "Concurrent mode: errors are not lost", "statement": "With concurrent task execution enabled, when a task fails and has no error link, or an expression of its links fails, then once all goroutines have finished the flow has failed if it has no error handler or the task belongs to the error handler, and otherwise the start tasks of the error handler have been entered.", "quantifier": "every flow definition whose links lead to its tasks and whose error handler uses task ids of its own; every interleaving; every outcome of the other activities and link expressions", "why_tests_cant": "The failing task races with all other tasks, with the error handler and with further failures; interleavings cannot be enumerated by tests.", "anchors": ["instance/ind_instance.go: handleTaskError, HandleGlobalError, enterTasks, handleTaskDone"]}
{"id": "C75", "title": "Concurrent mode: nothing is left out", "statement": "With concurrent task execution enabled, in a flow that neither failed, completed nor started its error handler: once all goroutines have finished, every task whose predecessors have all ended has become ready or was skipped; and if moreover the work queue is empty, no activity waits and the flow has no cycle, every task has ended exactly once. So no task is overlooked because its predecessors ended at the same time.", "quantifier": "every flow definition whose links connect its tasks; every interleaving; every outcome of activities and link expressions", "why_tests_cant": "A lost wake-up needs a narrow window between deciding links and entering the successors; interleavings cannot be enumerated by tests.", "anchors": ["instance/ind_instance.go: enterTasks, handleTaskDone, handleTaskError, propagateSkip", "instance/instance.go: FindOrCreateTaskInst, releaseTask"]}
{"id": "C76", "title": "Reconfiguration applies exactly the given settings", "statement": "Reconfiguring a loaded flow replaces exactly the given settings of the named tasks, in the flow and in its error handler, and tells their activities; everything else stays as it is. A setting that cannot be resolved leaves the settings unchanged and is reported.", "quantifier": "every flow definition, every description and every outcome of resolving settings", "why_tests_cant": "The tests reconfigure with one valid description; settings are visited in a random order.", "anchors": ["definition/definition.go: Reconfigure, reconfigureTaskSettings"]}
{"id": "C77", "title": "Cleanup reaches every activity", "statement": "Cleaning up a flow calls the cleanup of every activity of the flow and of its error handler that has resources of its own, each once.", "quantifier": "every flow definition", "why_tests_cant": "Universally quantified over flows; the tests do not clean up flows with error handlers.", "anchors": ["definition/definition.go: Cleanup"]}
{"id": "C78", "title": "Constants are converted to declared types when a flow is loaded", "statement": "When a flow is loaded, a constant given for a declared input or output of an activity is stored converted to the declared type, and the flow is rejected if that is impossible; expressions and undeclared inputs and outputs are stored as given. Exceptions for inputs: connection objects that have an id and a type are kept, and in test mode (TEST_MODE=true) nothing is rejected for its inputs.", "quantifier": "every activity, every set of inputs and outputs and every outcome of the conversions", "why_tests_cant": "Universally quantified over inputs, types and conversions.", "anchors": ["definition/definition_ser.go: createActivityConfig"]}
{"id": "C79", "title": "Concurrent mode: a flow without conditions skips nothing and does not block", "statement": "With concurrent task execution, whatever the interleaving, and until the error handler is started: in a flow whose links have no conditions (plain or labelled links only) no task is skipped, and a goroutine that has work left can go on or waits for one that can. When nothing can go on any more, and the flow did not fail, did not complete and no activity waits, every task of an acyclic flow has been executed successfully and ended exactly once.", "quantifier": "every flow without conditions, every outcome of activities, every interleaving of the goroutines", "why_tests_cant": "The status of a followed link is written twice (not followed, then followed); a join could observe the first value in some interleavings only. Go tests observe a few interleavings.", "anchors": ["model/simple/taskbehavior.go: Enter, Done", "instance/ind_instance.go: DoStepInLoop, enterTasks, handleTaskDone"]}
{"id": "C80", "title": "Concurrent mode: executions end", "statement": "With concurrent task execution, whatever the interleaving and whatever the activities do, no execution goes on for ever unless evaluations are repeated again and again (loops, retries) or the error handler is started: with T tasks and L links at most 10 T + 4 L + 2 steps are made, and two more for each repeated evaluation. A step is one call of a function that takes the instance lock, or one change of a link.", "quantifier": "every flow, every outcome of activities, every interleaving of the goroutines", "why_tests_cant": "A bound for all interleavings; joins entered several times could schedule a task over and over in some of them.", "anchors": ["instance/ind_instance.go: DoStepInLoop, execTask, enterTasks, handleTaskDone, handleTaskError"]}
{"id": "C81", "title": "A flow is loaded exactly if its activities are available and fit", "statement": "A task is accepted when a flow is loaded exactly if it refers to an installed activity (by reference, by an alias that is known, or, only without reference, by its type), every setting can be resolved, the activity accepts the settings, the mappings are accepted, every constant can be converted to its declared type (connection objects and the test mode excepted) and the schemas are accepted. The activity is then configured with exactly the given settings, resolved, with the given schemas and with the given type, or a type made of the last three parts of the reference.", "quantifier": "every description of an activity, every set of installed activities and aliases, every outcome of conversions, resolutions, mappers, schemas and factories", "why_tests_cant": "Tests load a few flow descriptions; the statement is an equivalence over all descriptions and installed activities.", "anchors": ["definition/definition_ser.go: createActivityConfig"]}
{"id": "C82", "title": "Values stored in a flow stay until a task that writes them is executed", "statement": "An attribute of a flow instance changes only when a task of this very instance is executed that writes it: by its activity, by its output mapping, by accumulating its outputs under its name, or as error data. When a task that does not accumulate its outputs is done, the values of its output mapping, computed from its outputs, are stored and are found by every task that is executed before another task writes the same name.", "quantifier": "all flow definitions, activities, mappings, expressions, executions with nested subflows and handlers, attributes and intermediate steps", "why_tests_cant": "A test observes chosen attributes after chosen steps; the claim excludes hidden writes by any step of any execution, including subflows, retries, loops, resumed tasks and error handling.", "anchors": ["instance/instance.go:254-287", "instance/taskinst.go:298-460", "instance/taskinst.go:463-600", "instance/util.go:306-338"]}
{"id": "C83", "title": "References in expressions refer to the current data", "statement": "After task t has finished with value v for its output n, `$activity[t].n` yields v for every task of the same flow instance until a task of that name is executed again; before any execution of t it cannot be resolved. After t has failed, `$error[t]` yields an object with the message, task, code and data of that error, and `$error[t].f` its field f, until t is executed again. While an iteration is executed, `$iteration[key]`, `$iteration[value]` and `$iteration[index]` yield the parts of the element of this iteration. (Task names without dots, default output mappings, activities that do not write these reserved names themselves.)", "quantifier": "all flow definitions, activities, executions with subflows, loops, retries and handlers, tasks, outputs and later states", "why_tests_cant": "A test resolves chosen references at chosen points; the claim is about every reference at every later point of every execution, with arbitrary other tasks in between.", "anchors": ["definition/resolve.go:54-144", "definition/mapper.go:24-50", "instance/scopes.go:14-40", "instance/util.go:64-70", "instance/instance.go:237-252"]}
{"id": "C84", "title": "An activity is called with the inputs its mapping yields from the current data", "statement": "Whenever the activity of a task is called, at the first attempt, at a retry or in an iteration of a loop, its inputs are exactly what the input mapping of the task yields from the attributes of the flow and the iteration variables at that moment, with the overrides of an interceptor. In particular a value produced by one task reaches the input of a later task that is mapped to it.", "quantifier": "all flow definitions, activities, mappings, interceptors, executions; every call of every activity", "why_tests_cant": "A test looks at the inputs of chosen calls; stale inputs would show up only in particular orders of retries, iterations and other tasks.", "anchors": ["instance/util.go:46-126", "instance/taskinst.go:298-372", "model/simple/retry.go:56-73", "model/simple/iteratorbehavior.go:92-151"]}
{"id": "C85", "title": "A run executes the requested flow with exactly the supplied inputs", "statement": "Running a flow action starts an instance of the flow named in the run options, else of the flow the action was created for. The instance has the identifier that is to be preserved, else a new one. Its attributes are the supplied inputs (never the run options themselves), else the declared defaults, else the event and the flow context. A state recorder is told this identifier and exactly the supplied inputs. A restart or resume continues the saved instance; of its attributes only the supplied ones and the event change; without saved instance it is an error. Requests that cannot be carried out are reported as errors.", "quantifier": "all flow managers, resources, models, actions, inputs, run options and saved instances", "why_tests_cant": "A test runs chosen combinations of action, options and inputs; the claim is about every combination, including flows that are resources or not on either side and saved states of any content.", "anchors": ["action.go:128-155", "action.go:178-356", "instance/exec.go:7-25", "support/definition.go:19-45", "instance/ind_instance.go:873-930"]}
{"id": "C86", "title": "The tester starts, restarts and resumes what the request says", "statement": "A start request of the tester executes the flow with the given address, with the attributes and data of the request, and reports the identifier of the new instance. A restart request continues the saved instance under a new identifier with all pending work in order and all task statuses, its attributes overwritten by the data of the request. A resume request continues the saved instance.", "quantifier": "all flows, requests, saved instances and data", "why_tests_cant": "A test sends chosen requests for chosen flows; the claim is about every request and every saved state.", "anchors": ["tester/request.go:37-160", "action.go:178-356"]}
{"id": "C87", "title": "A detached call starts the called flow and never keeps the caller waiting", "statement": "A subflow task in detached mode starts a new, independent instance of the called flow with an identifier of its own; the declared inputs of that flow have the values of the inputs of the task, else their declared defaults, and it is attributed to the event of the caller. The task is done at once if the called flow can be started, whatever becomes of that flow, and fails with an error otherwise; it never waits.", "quantifier": "all calling flows, tasks, called flows (resources or not), states of the caller", "why_tests_cant": "A test calls chosen flows; the claim is about every called flow and every state of the caller, with declared inputs the task does not supply.", "anchors": ["activity/subflow/activity.go:87-109", "instance/util.go:383-412", "action.go:178-372"]}
{"id": "C88", "title": "A restarted flow continues as the original would have", "statement": "If the state of a running flow is saved, restored and restarted (without naming a step), the restarted flow continues exactly as the original would have: after the same number of steps it has the same status, attributes, links, results, tasks with the same statuses and the same pending tasks, and since the save the same tasks were executed with the same outcomes in the same order, the same news went to listeners and the same replies were given. Loops, returned results and error handling in progress are continued, not repeated or forgotten.", "quantifier": "all flows, reachable states at which the state is saved, numbers of further steps, and all activities, mappers and link conditions that depend only on the data of the flow and their task", "why_tests_cant": "A test compares one run with one restarted run; the claim is about every state in which a flow can be saved and about every continuation.", "anchors": ["instance/ind_instance.go:873-944", "instance/instance_ser.go:17-260", "instance/taskinst.go:38-58", "action.go:257-282", "tester/request.go:90-123"]}
{"id": "C89", "title": "Tasks that wait for each other never execute", "statement": "A task that lies on a cycle of links, or behind one, is neither executed nor skipped, however often its other predecessors finish: links that form a cycle never make a task run repeatedly, and no task of the cycle runs first.", "quantifier": "all flow definitions and error handlers with distinct link identifiers, all activities, schedules, inputs and lengths of the execution", "why_tests_cant": "A test can only wait for some time and see that the task has not executed yet; that it never will, for any graph with a cycle, needs an argument over all executions.", "anchors": ["model/simple/taskbehavior.go:24-84", "model/simple/taskbehavior.go:405-442", "definition/definition_ser.go:62-144"]}
{"id": "C90", "title": "The tester can be stopped and started again", "statement": "When waiting for the tester server to stop reports success, the server was stopped, accepts no connections and no request is being processed, and none is processed afterwards. Requests in progress are counted exactly and never exceed 50000. A server that was stopped can be started again, and asking whether it is started gives the truth.", "quantifier": "all interleavings of starting, stopping and waiting with connections and requests of any number of clients", "why_tests_cant": "The count of requests is kept by concurrent goroutines; a test sees a few interleavings.", "anchors": ["tester/server.go:17-155", "tester/service.go:43-55"]}
{"id": "C91", "title": "Events identify the task and the flow instance", "statement": "The event of a task names the task as its definition does, and names the flow instance by the name of its definition and by an identifier that no other flow instance of the run has; the events of a flow instance use the same name and identifier.", "quantifier": "every reachable state of every flow, every flow instance at any depth, every task", "why_tests_cant": "The identifiers of subflows are computed from counters; that they never coincide for any nesting is not testable.", "anchors": ["instance/taskevents.go:95-193", "instance/flowevents.go:69-114", "instance/instance.go:56-66"]}
{"id": "C92", "title": "Spans are finished once and nest as flows and tasks do", "statement": "With tracing enabled every evaluation of an activity and every flow instance has a span of its own, and what is executed does not change. A span is finished exactly once: that of a task when its evaluation ends, with the error of the evaluation if it failed, and not while the task waits; that of a flow when the flow completes or fails. The parent of the span of a task is the span of its flow instance, the parent of the span of a called flow is the unfinished span of the task that called it.", "quantifier": "every reachable state of every flow, all tasks, retries, rounds of loops, called flows at any depth", "why_tests_cant": "Spans are finished at eight places of the engine; that each path passes exactly one of them holds for all flows or not at all.", "anchors": ["instance/taskinst.go:325-328", "instance/ind_instance.go:119-122", "instance/ind_instance.go:403-468", "instance/ind_instance.go:486-521", "instance/ind_instance.go:605-719", "model/simple/taskbehavior.go:116-196", "action.go:318-327", "action.go:396-428"]}
{"id": "C93", "title": "A flow pauses only between attempts and between rounds", "statement": "While a task is evaluated the flow pauses exactly for the configured interval between any two attempts to evaluate its activity, and for the configured delay between any two rounds of a loop; never before the first or after the last attempt or round, and not at all for settings that are not positive. All retries of a task instance use the same interval, the one that was determined with its first retry.", "quantifier": "all flows and environments, all runs, all tasks with retries or loops, plain or calling a flow", "why_tests_cant": "Whether a pause is made depends on the results of all attempts and on the state of the loop; a test measures the time of single runs.", "anchors": ["model/simple/retry.go:24-73", "model/simple/taskbehavior.go:116-196", "model/simple/iteratorbehavior.go:114-151", "model/simple/dowhilebehavior.go:71-99", "docs/model.md:67", "docs/model.md:120", "docs/model.md:177-189"]}
{"id": "C94", "title": "A state recorder is told of the start, of every step and of the end of a run", "statement": "A recorder of states does not change what is executed. It is told of the start of a run exactly once and before everything else, with the identifier, the name, the inputs and the identifier of the original instance. After the start (unless the run continues at a later step) and after every step it receives exactly one record, of the state at that moment and of no state in between. It is told of the end exactly once and last, with the final status and with the outputs that are delivered, however the run ends.", "quantifier": "every flow and every run of it, all step limits, all outcomes", "why_tests_cant": "The recorder is called at six places of two packages; that the calls of every run form this protocol is a statement about all runs.", "anchors": ["action.go:307-312", "action.go:348-356", "action.go:387-442", "instance/recorder.go:22-41", "instance/ind_instance.go:642-644", "instance/ind_instance.go:705-707", "instance/ind_instance.go:143-159"]}
{"id": "C95", "title": "The interface of a called flow is determined once, however many tasks ask for it at the same time", "statement": "A task that calls a flow takes the names of the inputs it passes from the interface of the called flow. However many executions of the task ask at the same time, the flow is never looked up by two of them at once, its interface is found at most once, and every execution is given either nothing or that interface; once one has been given it, all later ones are given the same and none looks the flow up again. As long as the flow cannot be found nothing is remembered, so that a later execution finds it. No execution waits for ever, and an execution uses the interface of the flow that is called.", "quantifier": "any number of goroutines, every interleaving of their accesses to shared memory, any changes of the definition behind the URI", "why_tests_cant": "It is a property of all interleavings of the double-checked lock; a race test sees a few of them.", "anchors": ["activity/subflow/activity.go:61-84", "activity/subflow/activity.go:87-99", "instance/util.go:340-351"]}
{"id": "C96", "title": "A loop task that is retried repeats the failed round, not the loop", "statement": "A looping task may also be configured to be retried, and its activity may be a flow that is called. Then every round of the loop is tried like a task without a loop: as long as an attempt fails in a retriable way and retries are left, the same round is tried again, with the same key, value and index; a failed attempt consumes no element and does not advance the index. When the attempts of a round end well, an iterator goes on with the next element until there is none, and a do-while task evaluates its condition with the index of this round. Every round has the configured number of retries.", "quantifier": "all flows and runs, all values iterated over, any number of rounds, any pattern of failures, synchronous and waiting activities and called flows", "why_tests_cant": "The combination of loop position and retry count depends on the whole history of failures; tests try a few patterns.", "anchors": ["model/simple/iteratorbehavior.go:22-174", "model/simple/dowhilebehavior.go:24-99", "model/simple/retry.go:24-73", "model/simple/taskbehavior.go:116-152"]}
{"id": "C97", "title": "Executing a flow without circles comes to rest", "statement": "If the links of a flow and of the flows it calls form no circle, and the flows do not call each other in circles, then an execution comes to rest: after a number of steps that depends on the definitions only, nothing is left to do, not counting the rounds of loops that are followed by another round. This holds whatever activities, link expressions, mappings and retries yield and whatever order the work items are taken in, also when tasks fail, an error handler runs or a flow returns early.", "quantifier": "all flows without circles, all sets of callable flows that do not call each other in circles, all behaviours of activities, expressions and mappings, all orders of work items, all inputs", "why_tests_cant": "That an execution does not go on for ever cannot be observed by running it for a limited time, and a bound has to hold for every behaviour of the activities.", "anchors": ["instance/ind_instance.go:298-336", "instance/ind_instance.go:401-468", "instance/ind_instance.go:605-719", "model/simple/taskbehavior.go:24-389"]}
{"id": "C98", "title": "A flow that only uses task types its model provides is accepted", "statement": "If every task of a flow has a type for which the model named by the flow (or the default model, if it names none) has a behaviour, building the definition of the flow is not refused because of the task types, whatever was registered before or afterwards.", "quantifier": "all sequences of model registrations, all flow definitions, all task types", "why_tests_cant": "Depends on every history of registrations; the tests register one model and use flows that name none.", "anchors": ["model/registry.go:17-33", "model/registry.go:59-75", "util/modelvalidator.go:17-26", "definition/definition_ser.go:146-158", "action.go:121"]}
{"id": "C99", "title": "The tester answers every request truthfully", "statement": "Every request to start, restart or resume a flow through the tester is answered: with the identifier of the instance that is executed if the request is carried out, and with an error status and the reason otherwise. A success answer is only given if a flow instance was executed.", "quantifier": "all requests (readable or not), all sets of flows, resources and models, all saved instances and data", "why_tests_cant": "There are no tests of the handlers; the answer depends on every combination of flow, model, saved instance and failure, including panics deep inside the engine.", "anchors": ["tester/service.go:106-147", "tester/service.go:153-197", "tester/service.go:203-241", "tester/request.go:37-160"]}
{"id": "C100", "title": "A run with concurrent task execution delivers one true result", "statement": "If tasks are executed concurrently, a run delivers exactly one result when the flow is over: the return data if the flow completed, its error if it failed, the error of the step limit if more work items than allowed would have to be executed. The result is final: nothing that happens afterwards contradicts it, and nothing is executed any more. No more work items are executed than the limit allows (one more than it says).", "quantifier": "all flow definitions, all interleavings of the loop and the goroutines, all results of activities, all limits", "why_tests_cant": "The result depends on when the loop looks at the status while goroutines still work; a test sees one interleaving, and the windows are a few instructions wide.", "anchors": ["action.go:374-385", "action.go:412-438", "instance/ind_instance.go:338-385"]}
{"id": "C101", "title": "A flow that ends without an explicit return returns its declared outputs", "statement": "If no activity of a flow returns explicitly and the flow completes, its caller gets one result that contains exactly the declared outputs to which the flow has given a value, with this value, and otherwise the declared default. This is the same for the caller of the run and for the task of another flow that called it as a subflow.", "quantifier": "all flow definitions with declared outputs, all executions, all activities that do not return, all called flows", "why_tests_cant": "It ranges over all flows and all ways they can end; the tests of subflows always use an explicit return, and those of defaults never set the output.", "anchors": ["instance/instance.go:168-191", "instance/ind_instance.go:509-530", "action.go:412-438"]}
{"id": "C102", "title": "The verdicts of a unit test are true", "statement": "When a flow is executed with an interceptor, every assertion is Pass only if its expression is true after the evaluation of its task that it belongs to, Fail only if it is not, and AssertionNotExecuted only if the task did not end as the interceptor requires (assertions on the activity: with success, assertions on the error: with a failure). An activity is reported as Pass only if it was called and succeeded, and as Fail only if it was called and failed. The same holds for the assertions and for the result of the flow. The interceptor does not change the execution in any other way than by its mocked data.", "quantifier": "all flows, loops, retries and called flows, all assertions and values of their expressions, all answers of the activities, all executions", "why_tests_cant": "The verdicts of a test are themselves what is trusted: a test can check a few verdicts, not that no execution, loop, retry or failure yields a false one.", "anchors": ["instance/util.go:128-204", "instance/util.go:276-303", "instance/taskinst.go:298-535", "action.go:448-506", "support/interceptor.go:10-92"]}
{"id": "C103", "title": "Every run ends", "statement": "A run of a flow ends after finitely many steps: with the results of a completed flow, with the error of a failed flow, with the error that the step limit has been reached, or (without a result) when the flow is active and nothing is left to do. This holds for every step limit, whatever activities return and whatever mappings, conditions and link expressions evaluate to, also with loops that never stop, flows that call themselves and circles of links.", "quantifier": "all flows and flows called by them, all answers of activities that return, all values of mappings, conditions and link expressions, all step limits, all executions", "why_tests_cant": "A test that ends shows one execution that ends. That no flow, failure or interplay of skipped tasks, error handlers and called flows lets the engine work for ever needs a measure that falls in every execution.", "anchors": ["action.go:358-442", "instance/ind_instance.go:298-336", "instance/ind_instance.go:471-574", "instance/ind_instance.go:666-751", "model/simple/taskbehavior.go:24-84", "model/simple/taskbehavior.go:309-344"]}
{"id": "C104", "title": "An error handler is executed like a flow of its own", "statement": "When an error that no error link handles makes a flow start its error handler, the tasks of the error handler are executed by the same rules as the tasks of a flow: exactly the start tasks and the targets of followed links are executed, tasks without loop and retry at most once, every link is decided once, the others are skipped, the flow is completed as soon as all of them are finished and not before, and this happens after a number of steps that depends only on the error handler and the rounds of its loops. What the flow did before the error has no influence on this.", "quantifier": "all flows with an acyclic error handler that calls no other flow, all executions up to the error and after it, all answers of activities, values of link expressions and orders of work items", "why_tests_cant": "Tests show single error handlers after single failures. That nothing left over from the failed flow (tables of tasks and links, attributes, work items) changes how the error handler is executed concerns every state in which an error can occur.", "anchors": ["instance/ind_instance.go:666-719", "instance/ind_instance.go:401-468", "instance/ind_instance.go:721-751", "model/simple/flowbehavior.go:55-69", "model/simple/dowhilebehavior.go:82-99"]}
{"id": "C105", "title": "Settings of the environment are read as written", "statement": "The user, host, application name and application version that flows report are what the environment variables say, or the documented fallback if they say nothing; once a variable has said something the reported value never changes while the program is running, and the name recorded for a run is the one its flows see. An option whose variable is not set or contains no truth value has its default. The step limit is the number its variable contains, or ten million if it contains none, with and without concurrent task execution.", "quantifier": "all environments and all changes of them while the program is running, all sequences of readings of the settings, all numbers", "why_tests_cant": "Settings are kept in package variables that a test cannot reset: a test process sees one history of readings. That every history gives the same answers, and every number is read as written, concerns all of them.", "anchors": ["support/env.go:23-92", "util/util.go:27-38", "instance/ind_instance.go:143-159", "instance/ind_instance.go:180-181", "instance/ind_instance.go:347", "action.go:45"]}
{"id": "C106", "title": "An application executes its own flows with its own settings", "statement": "However often and in whatever order the factories of the flow action and of the on-demand flow action are initialised for an application, flows named by URI are those of this application, the same definition is executed by actions and by tasks that call the flow, and states are recorded by the recorder and in the mode of the application. Resources that are replaced at run time are used from then on; resources that cannot be loaded change nothing.", "quantifier": "all sequences of initialisations of the two factories, all settings, recorders, resources and remote flows, all lists of replaced resources", "why_tests_cant": "The factories keep what they need in package variables that are set at most once per process, so a test process can show one sequence of initialisations only.", "anchors": ["action.go:44-155", "ondemand/action.go:50-140", "support/definition.go:10-67", "support/manager.go:44-71", "instance/util.go:361-367", "instance/instance_chg.go:57-60"]}
{"id": "C107", "title": "After the error handler has started the failed flow is not continued", "statement": "Only tasks that are pending, that are reached by links from executed tasks, or that start an error handler are ever executed. In particular, when a task fails without error link and the error handler of its flow is started, no task of the flow outside the error handler is executed any more, in this instance or in any flow it has called.", "quantifier": "all flows, environments and schedules, all reachable states, all tasks that fail, all numbers of later steps", "why_tests_cant": "It says what does not happen in any continuation of a run, of any length and under every schedule of pending tasks; a test sees one schedule of one flow.", "anchors": ["instance/ind_instance.go:298-336", "instance/ind_instance.go:605-719", "instance/ind_instance.go:721-751", "model/simple/flowbehavior.go:55-69"]}
{"id": "C108", "title": "The data a flow computes do not depend on the order in which its tasks are executed", "statement": "Two executions of the same flow are started with the same data. Every task computes the same outputs, the same success and the same link conditions whenever the data computed by the tasks before it are the same. If one of the executions completes, then so does the other; both have executed the same tasks with the same success, have followed the same links and end with the same data, in whatever order pending tasks were taken.", "quantifier": "all acyclic flow definitions, all pairs of environments and schedules whose tasks agree on equal data, all initial data, all lengths of execution", "why_tests_cant": "It compares all pairs of schedules of every flow; a test runs one flow under one or a few schedules.", "anchors": ["instance/ind_instance.go:298-336", "instance/ind_instance.go:401-602", "instance/ind_instance.go:721-751", "instance/instance.go:237-287", "instance/taskinst.go:298-447", "model/simple/taskbehavior.go:24-442"]}
{"id": "C109", "title": "An activity finds the inputs of this execution and leaves behind the outputs it has set", "statement": "Through its context an activity finds exactly the inputs mapped for this execution. A legacy activity finds for an output the value it has given to it last, otherwise the value configured in the flow, and for a setting the configured one. After an execution `$activity[t].n` yields for every declared output the value that this execution has given to it, otherwise the configured one; an output that has neither has no value.", "quantifier": "all sequences of executions of an activity by a task, all sequences of uses of the context, all configurations, inputs, outputs and values", "why_tests_cant": "Tests call an activity a few times with a fixed sequence of reads and writes; the claim is about all sequences, including repeated executions by loops and retries.", "anchors": ["instance/taskinst.go:103-149", "instance/taskinst.go:627-690", "instance/util.go:306-338", "definition/mapper.go:23-50", "definition/definition.go:215-245", "definition/definition_ser.go:312-348"]}
{"id": "C110", "title": "The error links of a task catch whatever goes wrong in it", "statement": "Whatever goes wrong while a task with an error link is executed - its activity fails or panics, its data are rejected, the value it iterates over is unusable, the condition of its loop cannot be computed or is no truth value, an element of the data is not there - the task fails, exactly its error links are followed, the flow does not fail and its error handler is not started.", "quantifier": "all flows, all tasks with error links, all reachable states, all values to iterate over, all results of conditions, activities and attempts", "why_tests_cant": "Tests provoke a few failures of activities; the claim is about every way in which the execution of a task can end, including panics outside of activities, in all states of loops.", "anchors": ["instance/ind_instance.go:401-468", "instance/ind_instance.go:605-663", "model/simple/iteratorbehavior.go:22-174", "model/simple/dowhilebehavior.go:24-99"]}
{"id": "C111", "title": "The tasks, links and conditions of a loaded flow can be listed completely", "statement": "Of a loaded flow and its error handler exactly the described tasks are listed, each identifier once, and each is found by its identifier; exactly the described links are listed, and each is found by its number; exactly the conditional links of the flow and of its error handler are listed as conditions, each once, and every listed condition has been given and compiled. None of this depends on the order in which maps are visited.", "quantifier": "all flow descriptions that are accepted, all expression languages, all orders in which maps are visited", "why_tests_cant": "The iteration order of Go maps is random and a test sees a few of them for a few flows; the claim is about completeness and uniqueness for every description and every order.", "anchors": ["definition/expr.go:30-54", "definition/definition.go:54-63", "definition/definition.go:168-183", "definition/definition.go:506-520", "definition/definition_ser.go:62-144"]}
{"id": "C112", "title": "The rounds of a repeated task can be told apart in events and spans", "statement": "The task instance identifier in the events of a task and in the tags of its spans is the identifier of the task until the task is repeated (the next element of an iterator, the next round of a do-while loop). With every repetition the task instance gets an identifier that none of its spans had before; all attempts of one round carry the same one, which is the one of the events of that round; it changes only when the task is entered or repeated.", "quantifier": "every reachable state of every flow, all tasks, loops, retries and called flows, with and without tracing", "why_tests_cant": "A test sees a few rounds of one loop. That an identifier never occurs twice is a claim about all interleavings of retries, repetitions, entered tasks and tracing contexts.", "anchors": ["instance/ind_instance.go:456-463", "instance/ind_instance.go:736", "instance/taskinst.go:325-328", "instance/taskinst.go:610-621", "instance/taskevents.go:95-110"]}
{"id": "C113", "title": "What spans are tagged with agrees with what is executed and with their nesting", "statement": "Every span of a task is named after the task and tagged with the name of the task and with name and identifier of the flow instance; the span of a flow instance is named after the flow and tagged with its name and identifier, and if it was called, with name and identifier of the calling flow. The identifier belongs to one flow instance only, the tags of a span agree with those of its parent span, and they do not depend on the moment at which the span is started.", "quantifier": "every reachable state of every flow with tracing, all tasks, called flows at any depth", "why_tests_cant": "Parent spans and tags are computed at different places from different data; that they agree for every nesting of flows cannot be enumerated.", "anchors": ["instance/ind_instance.go:950-964", "instance/taskinst.go:610-621", "instance/ind_instance.go:119-122", "instance/taskinst.go:325-328", "instance/instance.go:56-66"]}
{"id": "C114", "title": "An interceptor affects only the task it is meant for", "statement": "An interceptor given for a task of a flow (inputs, skipping, mocked outputs or exceptions, assertions) affects the execution of this task only: the evaluation of every other task is the same with and without it, a run is the same until the task is entered, and an interceptor for a task that no flow has changes nothing.", "quantifier": "all flows with called flows, all interceptors, all environments, all lengths of runs", "why_tests_cant": "The interceptors are looked up by strings put together from names and ids; that no other task of any called flow is affected concerns all names, all nestings of flows and the whole later run.", "anchors": ["support/interceptor.go:40-58", "instance/util.go:84-126", "instance/util.go:128-178", "instance/util.go:206-274"]}
{"id": "C115", "title": "A mocked task goes on as if its activity had returned the mocked outputs", "statement": "If a unit test mocks a task with outputs, the task has the same result, the same outputs and the same effect on the flow as if its activity had been called and had returned these outputs; only the call of the activity is missing.", "quantifier": "all flows, states and environments, all mocked outputs, all activities that return them", "why_tests_cant": "A unit test relies on the mock being faithful; comparing the mock with every activity, every state and every mapping is not a matter of examples.", "anchors": ["instance/taskinst.go:343-446", "instance/util.go:206-274"]}
