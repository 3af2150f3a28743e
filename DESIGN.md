# Design of the model and the proofs

Subject: the flow engine in `/repo` (Go, `project-flogo/flow`), read as text.
Language: Lean 4.33.0, core library only.

## 1. Trusted base

* Lean's kernel, and the three standard axioms at most: `propext`, `Classical.choice`, `Quot.sound`.
  No axiom of our own, no `sorry`, no `native_decide`, no `bv_decide`.
  `lean/Verif/Axioms.lean` prints the axioms of every property theorem during the build.
* The translation from Go to Lean, done by hand. Each model definition cites the file and lines it models
  and states its simplifications. There is no mechanical link between `/repo` and the model.
* The specifications in `lean/Verif/Spec`. They share data types with the model, not its functions. `Spec/Run` names the
  observable parts of a run: reachable states, the next work item, activity calls, flow statuses.
* Facts about code that is not in `/repo` (there are no dependencies in the sandbox):
  * `core/support.SyncQueue` is a queue protected by a lock. Which ends `Push` and `Pop` use cannot be seen. The model
    therefore lets an oracle `pick` choose *any* pending work item in every step. Every theorem about executions holds for
    all choices. Only restart (C33) depends on the ends; it is stated for both.
  * Go map iteration order is arbitrary: places that range over a map take an ordering oracle, or are stated on the
    resulting finite map.
  * Activities, link and loop expressions, mappers, interceptors, coercions, schemas, definitions found by URI are
    *oracles*: arbitrary functions of the whole state, universally quantified in the theorems (`Env`).
  * `sort.SliceStable` sorts stably. `encoding/json` round-trips the serialised structs it is given.
  * `sync.Mutex` and `sync.RWMutex` are not re-entrant (Go documentation).

### Modelled

| Go code | Lean module |
|---|---|
| `model/status.go`, `model/behavior.go` constants; attribute values, finite maps | `Model/Basic` |
| `model/simple/taskbehavior.go` decisions of Enter, Done, Skip, Error, getEnterCode, SortTaskEntries | `Model/Behavior` |
| `definition/definition.go` as the engine sees it | `Model/Definition` |
| `definition/definition_ser.go` NewDefinition, createTask, createActivityConfig (errors), createLink, retry and loop settings | `Model/DefinitionSer` |
| `definition/definition_ser.go` createActivityConfig; `definition/definition.go` Reconfigure, reconfigureTaskSettings, Cleanup | `Model/Activity` |
| `instance/instance.go` task and link tables, statuses, attributes, releaseTask; `model/simple/flowbehavior.go` | `Model/Instance` |
| `activity/subflow/activity.go` Eval (declared inputs); `instance/ind_instance.go` NewIndependentInstance, newEmbeddedInstance, startInstance, DoStep, scheduleEval, execTask, handleTaskDone, handleTaskError, HandleGlobalError, enterTasks; `instance/taskinst.go` EvalActivity, PostEvalActivity, EvalLink, error objects, accumulation; `instance/util.go` mappers, interceptors, StartSubFlow; `model/simple/retry.go`, `dowhilebehavior.go` | `Model/Engine` |
| `model/simple/iteratorbehavior.go` iterators | `Model/Loops` |
| `action.go` Run: step loop, step limit, result handling; GetReturnData | `Model/Run` |
| `ondemand/action.go` Run, ApplyMappings | `Model/OnDemand` |
| `ondemand/action.go` 223-272 with concurrent task execution | `Model/ConcDemand` |
| `action.go` 307-312, 348-356, 440-442 with concurrent task execution (recorder calls) | `Model/ConcRecord` |
| `instance/flowevents.go`, `instance/taskevents.go`: names and contents of the events | `Model/Events` |
| `instance/instance_chg.go` | `Model/Tracker` |
| `instance/ind_instance.go` Snapshot; `state/util.go` StepsToSnapshot; `state/status.go`, `instance/recorder.go`, `action.go` Initialize (recording modes) | `Model/Snapshot` |
| `instance/instance_ser.go`; `ind_instance.go` Restart | `Model/Serial` |
| `support/manager.go` GetFlow as a machine of goroutines | `Model/Manager` |
| `support/manager.go` reading of files, gzip test; `support/patch.go` | `Model/Support` |
| `model/registry.go`, `model/model.go`, `util/modelvalidator.go`, getFlowModel | `Model/Registry` |
| `instance/scopes.go`, working data | `Model/Scopes` |
| `definition/mapper.go`, `definition/resolve.go` (activity outputs) | `Model/Outputs` |
| `action.go` New, Run up to the goroutine; `tester/request.go`; `instance/util.go` StartDetachedSubFlow; `support/definition.go` GetDefinition | `Model/Launch` |
| `instance/ind_instance.go` Restart and init, `instance/taskinst.go` initTaskInst: the state in which a restarted instance is executed | `Model/Resume` |
| `tester/server.go`: starting, stopping, waiting, counting of requests | `Model/Server` |
| tracing: where spans are started and finished (`taskinst.go` 325-328, `ind_instance.go`, `taskbehavior.go`, `action.go`) | `Model/Spans` |
| pauses: where `time.Sleep` is called (`retry.go` 56-73, `iteratorbehavior.go` 134-139, `dowhilebehavior.go` 81-99) | `Model/Delays` |
| `action.go` 307-440 and `ind_instance.go` 143-159, 642-644, 705-707 (when the recorder is called); `instance/recorder.go` 22-41 without recorder | `Model/Recording` |
| `activity/subflow/activity.go` 61-84 (each access to shared memory a step), `instance/util.go` 340-351 | `Model/Interface` |
| `tester/service.go` 106-241: answers to start, restart and resume requests | `Model/Service` |
| `action.go` 374-385, 412-438 around `DoStepInLoop` (`instance/ind_instance.go` 338-385) | `Model/ConcRun` |
| `instance/util.go` 128-204 and 276-303 (assertions and status of activities), their calls in `instance/taskinst.go` 298-535, `action.go` 448-506 (assertions of the flow); not the messages | `Model/Verdicts` |
| `support/env.go`, `util/util.go` GetMaxStepCount | `Model/Settings` |
| `action.go` and `ondemand/action.go` Initialize (package variables), `support/definition.go`, `support/manager.go` GetFlow without other goroutines | `Model/Setup` |
| `instance/taskinst.go` 103-149 (activity context), 627-690 (`LegacyCtx`); `definition/definition.go` 215-245 | `Model/Context` |
| `definition/expr.go` 31-53, `definition/definition.go` `Tasks`, `Links`, `GetTask`, `GetLink`, `ErrorHandler.Tasks`, `ErrorHandler.GetTask` | `Model/Inspect` |
| `instance/ind_instance.go` 456-463 and 736 (`TaskInst.id`, `counter`), `instance/taskinst.go` 618 | `Model/TaskIds` |
| `instance/ind_instance.go` 950-964, `instance/taskinst.go` 610-621 (`SpanConfig`; not `task_type`) | `Model/SpanTags` |
| `definition/resolve.go` all resolvers, over the scope of a task | `Model/Resolve` |
| `support/interceptor.go` coverage, `ind_instance.go` 753-812, `linkinst.go` 36-74 | `Model/Cover` |
| `support/env.go` propagate-skip option, propagateSkip | `Model/SkipOption` |
| `DoStepInLoop`, `enterTasks`, `handleTaskDone`, `UpdateAttrs`, `SetValue` in concurrent mode as a machine of goroutines | `Model/Concurrent` |

### Not modelled

The tag `task_type` of tracing spans, logging, real time, the HTTP protocol, router and headers of the tester package, JSON text itself, the expression language,
schema validation beyond a yes/no oracle, memory and performance, Go data races other than the interleavings of
`Model/Concurrent` and `Model/Manager`. In concurrent mode subflow instances have no lock at all in the code; data races on
them are outside the machine.

## 2. Shape of the engine model

* A flow instance (`Inst`) holds its own heap of task objects (`objs`) because a task object can outlive its entry
  in the `taskInsts` map (work items and hosts keep pointers to it). `taskInsts` maps task id to object index.
* `enterTasks` and `handleTaskDone` call each other recursively through skipped tasks. The recursion is
  defunctionalised: an explicit stack of frames (`enter entries`, `release task`), one micro step per loop
  iteration. So the model is total without fuel and invariants are proved by induction over micro steps.
* `Eng` = list of instances (index 0 is the top level, others are subflows), work queue, counters, stack, and ghost fields
  (the trace and the posted events of each instance, the log of the queue), which the model never reads.
* `Eng.init` starts a flow, `Eng.step env` is one micro step, `Eng.run env e n` the state after `n` of them. If nothing is
  left to do a step only increases the step counter. `Spec.Reachable env e` says that `e` occurs in some run.
* Concurrent mode, the flow manager and the two actions are separate machines with their own steps.

### Proof structure

* `Proofs/EngOK`, `Proofs/Base`: invariants of every run (trace in order, links agree with the trace, work items refer to tasks
  that became ready, hosts exist, identifiers unique). `Proofs/Frame`: what an evaluation may change. `Proofs/Ops`: a step as
  elementary operations. `Proofs/Steps`: what one step does to tasks and links.
* `Proofs/Graph*`: the graph theorems C06-C09. `Graph` defines an abstract state per flow instance (statuses, decisions,
  stack of successors, pending work) with the invariant `GInv` and its preservation. `GraphSim` relates it to an instance,
  `GraphInst`, `GraphStart`, `GraphExec`, `GraphEng` show that every step of every run keeps it. `GraphTerm` adds a measure.
  `Hosted`, `HostedEval`: what an instance notices of its subflows; the load of a task (work items and running subflows)
  is 1 if it is ready and at most 1 if it waits.
  Scope (`Spec.Covered`): unique identifiers, links between tasks of the graph, acyclic, subflow tasks are not loops, and a *safe
  order of links*. `Spec.Served`: called subflows end at most once (they can end twice, C56_negation, and then a failed calling
  task is executed again, C07_negation_subflow). The safe order is needed: the code enters the successors of a task one after the other, and a successor that is
  skipped is finished and released at once. If it leads to another successor of the same task that is entered later, that one
  is entered again after its release (C07_negation, C08_negation).
* Property theorems are in `Props`, each with concrete cases that satisfy its hypotheses.

## 3. Properties

"neg" means that the code violates the property as stated: the negation is proved with a concrete witness and a
`_partial` theorem states what does hold. The full statement stays in `properties.jsonl`; what is missing is said in
`MANIFEST.json` and beside the theorem.

| Id | Property | Status | Modelled by | Proof |
|---|---|---|---|---|
| C01 | A joining task waits for every incoming link | proved | Behavior, Engine | decision theorem; invariant over all runs that every evaluated task was found ready; step theorem |
| C02 | A task none of whose incoming links is followed is skipped | partial | Behavior, Engine | decision theorem; invariant; step theorem; graph invariant for "never executed later" |
| C03 | Which links are followed after success | proved | Behavior, Engine | induction over the link list against an independent specification; step theorem |
| C04 | Which links are followed after a failure | proved | Behavior, Engine | the same for failures |
| C05 | Successor order is a stable priority order | proved | Behavior, Engine | permutation, sortedness, stability; step theorems |
| C06 | The set of executed tasks does not depend on scheduling | partial | Engine | graph invariant; `Runs` is an inductive predicate; any schedule; for covered graphs; refuted for unhandled errors by two schedules |
| C07 | Each task executes at most once per flow instance | partial | Engine | graph invariant; neg for unsafe orders of links and for subflows that end twice |
| C08 | Every acyclic flow finishes | partial | Engine | graph invariant and measure; for flows that call flows a potential summed over the tree of flow instances; neg for unsafe orders of links and for failing settings |
| C09 | No premature completion | partial | Engine | graph invariant; refuted for flows with an error handler by a run |
| C10 | A finished top-level flow stays finished | proved | Engine | induction over steps |
| C100 | A run with concurrent task execution delivers one true result | partial | ConcRun, ConcOrder | induction over the labels of a run, which is an execution of the machine of the concurrent mode with a loop, a counter and the results; negations by concrete interleavings |
| C101 | A flow that ends without an explicit return returns its declared outputs | partial | Mute, Returns | invariant that no instance has return data in any reachable state if no activity returns; the loop over the declared outputs by induction; negations in general for subflows and by a concrete run for defaults |
| C102 | The verdicts of a unit test are true | partial | Verdicts | the calls of the interceptor are modelled along the evaluation of an activity; one lemma per attempt, induction over the log of all attempts for the last one that was noted; the log is related to the engine by the attempts of C19; negations in general for panics and for the status of the flow, by concrete runs for rounds, retries and called flows |
| C103 | Every run ends | partial | Run, Engine, Instance | a measure on tasks that falls along every link out of a skipped task (by the numbering of the tasks, or because tasks on and behind a circle are never skipped, C89) shows that the stack of nested entries drains after every work item; the number of work items is bounded by the limit; induction on both. The negation by an invariant of a run whose stack grows with every step |
| C104 | An error handler is executed like a flow of its own | partial | Engine, Instance, Behavior | simulation: the states of the flow that handles the error are the images of states of a run of the error handler as a flow of its own, in an environment that sees the image (task objects, work items and events shifted, attributes under other names, since a flow that handles an error does not store "_E"); the start states correspond by invariants about the tables (link identifiers of the error handler are new, attribute names are unique), every step of the one is a step of the other. Then the theorems about C02, C06, C07, C08 and C09 are applied to that run. The negation by a concrete run |
| C105 | Settings of the environment are read as written | partial | Settings | the four kept settings as a state machine over readings at arbitrary moments; an invariant says what is kept, and gives every answer in terms of what the variable said at the readings so far. Reading of decimal numbers against a separate definition of decimal texts. The negations by concrete environments |
| C106 | An application executes its own flows with its own settings | partial | Setup, Snapshot initAction, Spec/Setup | induction over the sequence of initialisations with an invariant (only this application has been set up); flows of resources and remote flows by case analysis; induction over the list of replaced resources. The negations by concrete processes, that for unknown recording modes for all of them |
| C107 | After the error handler has started the failed flow is not continued | partial | Engine, Instance, Spec/Ahead, Spec/Below | the set of tasks ahead of a state is defined inductively from the state and the definitions alone; an invariant (work items, frames and new instances stay within a closed set) is preserved by every step, so the set bounds every continuation. For the error handler the set is computed by induction over its derivation. The negation by a concrete run |
| C108 | The data a flow computes do not depend on the order in which its tasks are executed | partial | Engine, Instance, Behavior, Run, Spec/Graph, Spec/Determined | a data plan names the attributes and the task that computes each of them. By induction over the rank of the tasks in the acyclic graph: a task is executed in one execution exactly if it is executed in the other, and the two evaluations find the same known data, because these were written by the last evaluation of an earlier task, by an earlier round of the same loop or not at all; evaluations are compared round by round, by induction over the number of the round. A task that called a flow is evaluated again when that flow has ended; this counts as a further round. Called flows must end at most once (C08 has flows for which this fails). The executions may belong to different environments. A second induction, over the steps of the other execution, shows that each of its steps is undisturbed, so that it completes as well; the rounds of its loops are mapped injectively to those of the first execution, which bounds the number of its steps. For the caller: the two runs by the action (Model/Run) end and deliver one result each, with the same outputs, by C101 and the bound of C08. The negation, for the error data shared by all failing tasks, by two concrete runs |
| C109 | An activity finds the inputs of this execution and leaves behind the outputs it has set | partial | Context, Activity, Outputs, Spec/Context | an execution is the list of uses of the context; the model records all answers, and the theorems are about this record. Induction over the list gives the last word on each output; induction over the executions gives what can be read afterwards. The configured values come from C78. The negations are general theorems, for every output to which an execution gives no value, with concrete cases, one of them in a run of the engine |
| C11 | A finished subflow stays finished | partial | Engine | closed sets of instances (`Proofs/Quiet`); neg while branches are pending |
| C110 | The error links of a task catch whatever goes wrong in it | partial | Engine, Loops | an invariant of all executions says that iterators stand at a valid position and exist while their task waits; it is preserved by every step, with retries and called flows. So an evaluation can only panic because of the condition of a do-while loop, and all other failures are errors, which C04 shows to be handled by the error links. The negation is a general theorem about every such condition, with a concrete flow beside one whose condition cannot be computed |
| C111 | The tasks, links and conditions of a loaded flow can be listed completely | partial | DefinitionSer, Inspect | the functions that list tasks, links and conditions are modelled over the maps of a built definition, with an arbitrary permutation for every iteration over a map. From C30 (the built graph is the described one) it follows that the lists are permutations of what the description says, with numbers from the positions in the description. That every condition compiles is shown by induction over the loop that builds the links. The negation is a theorem about all flows with error handlers |
| C112 | The rounds of a repeated task can be told apart in events and spans | partial | Spans, TaskIds | counter and identifier of every task instance are followed beside the engine and the tracing contexts of C92; every span records the identifier at its start. Invariant by induction over the span operations: all numbers in use for a task instance are at most its counter. From the shape of the operations of a step (a context is forgotten only as the last operation of a repeated task, and it exists then) it follows that a repetition gives a fresh number, that spans of one step agree, and, by induction over later steps, that rounds differ until the task is entered again. Without tracing the number is shown to be absent in all states |
| C113 | What spans are tagged with agrees with what is executed and with their nesting | partial | Spans, SpanTags | the tags are functions of the engine state. That they never change is shown by induction over steps (definition, identifier and task of an instance are kept by every step, the identifier of the run too). With the nesting of spans (C92) and the uniqueness of identifiers (C26) the agreement with parent spans follows. The negation is a run of a flow that calls a flow that calls a flow |
| C114 | An interceptor affects only the task it is meant for | partial | Engine, Proofs/Intercept | two environments that differ only in their interceptors are compared function by function: every function of the engine reads the interceptor only under the two keys of the task it evaluates. Equality of runs follows by induction. That keys differ is a lemma on strings: within a flow always, between flows if their names contain no hyphen. The negations are runs in which an interceptor reaches another task |
| C115 | A mocked task goes on as if its activity had returned the mocked outputs | partial | Engine, Props/Faithful, Props/FaithfulRun | the attempt with the mock and the attempt that calls the activity are computed side by side; both set the same outputs, and storing outputs commutes with changes of the list of calls. For plain tasks without retry this gives the same evaluation, with one more call on record. For flows without subflows the simulation of C88 then carries this through the rest of the run, and C114 removes the interceptor while its task is not pending. The negation is a flow that fails with the outputs of its activity and completes with the same outputs mocked |
| C12 | Explicit return ends the flow with exactly the returned result | partial | Engine, Run | step theorem and run theorem; neg for failing links, subflows, nil data |
| C13 | An unhandled error fails the flow with that error | partial | Engine, Run | step theorem, C10, run theorem; neg at the step limit |
| C14 | The error handler is started once | proved | Engine | invariant on the trace |
| C15 | A failure inside the error handler is reported | partial | Engine | step theorem; neg: the error is not returned |
| C16 | A subflow error handler does not disturb the parent flow | partial | Engine | frame theorem; neg: the task table of the top-level flow is emptied |
| C17 | Every run delivers exactly one result | partial | Run | invariant of the loop; neg: no result for stalled flows, extra results |
| C18 | The step limit bounds a run | partial | Run | invariant of the loop; neg for concurrent mode and restarts beyond the limit |
| C19 | Retry executes at most count+1 attempts | partial | Engine | induction on the budget against `Spec/Attempts`; neg for asynchronous failures |
| C20 | An iterator task runs once per element, in order | proved | Loops, Engine | induction over the rounds of a run |
| C21 | A do-while task runs once and then while its condition holds | proved | Engine | the same for conditions |
| C22 | Loops over asynchronous activities run every iteration | partial | Engine | neg: nothing is evaluated after the first asynchronous completion |
| C23 | Accumulated loop output has one entry per iteration | partial | Engine | the attribute of the accumulated output is followed through every function of the engine: a step appends at most one entry, exactly one if it ends an iteration; induction over the run; counterexample with a dotted task name |
| C24 | Flow instances do not share attributes | proved | Engine | frame theorem over steps |
| C25 | A subflow's outcome reaches the task that started it | partial | Engine | step theorems; neg for three paths |
| C26 | Flow instance identifiers are unique | proved | Engine | invariant |
| C27 | Caller inputs override declared defaults | partial | Engine | map lemmas; a called flow gets the inputs of the task, nil for the others; neg for reserved names and for the defaults of called flows |
| C28 | Observing a flow does not change its result | partial | Run | invariant; neg: the first observation fixes the result |
| C29 | Iteration variables are local to their task | proved | Scopes | induction over sequences of writes |
| C30 | A definition has exactly the described graph | proved | DefinitionSer | induction over the description |
| C31 | Serializing and restoring an instance preserves its state | partial | Serial | round trip on reachable states; neg: panics, lost hosts, lost task instances |
| C32 | Work item identifiers stay unique across a restore | partial | Serial | exact condition; neg in every restorable state with pending work |
| C33 | Restart keeps the pending work | partial | Serial | exact effect of the loop; neg for order, loss, status |
| C34 | Recorded step identifiers are consecutive | partial | Tracker | induction over calls; neg for restart with step 0 |
| C35 | The change record is complete | partial | Tracker, Engine | replay of the recorded calls; neg after an error handler start |
| C36 | A snapshot rebuilt from steps is the latest state | partial | Snapshot | reading of the steps; neg for attributes, deletions, queue, subflows, aliasing |
| C37 | A snapshot contains the whole instance | partial | Snapshot | field by field on reachable states; neg for subflows and queue |
| C38 | Recording mode decides what is recorded | partial | Snapshot | case analysis; neg for unknown names |
| C39 | A flow definition is loaded once and then stable | proved | Manager | invariant over all interleavings |
| C40 | Accepted task types can be executed | partial | Registry | invariant over registrations; neg for untyped tasks |
| C41 | A mocked activity is not executed | partial | Engine | invariant over all runs; neg for the other form of the key |
| C42 | Concurrent mode schedules a ready task once | proved | Concurrent | invariant over all interleavings |
| C43 | Concurrent mode does not deadlock on skipped tasks | partial | Concurrent | progress without skipped successors; neg: the lock is taken twice |
| C44 | Concurrent mode: simultaneous predecessors do not corrupt a join | partial | Concurrent | from C69 and C73; neg: interleavings that leave the flow active for ever, or skip the join |
| C45 | A failing link expression is never treated as false | partial | Behavior, Engine | decision theorem; neg for panics |
| C46 | Error details available to handlers are those of the failing task | partial | Engine | step theorems; neg for input mappers |
| C47 | Work items are numbered in order and never lost | proved | Engine | invariant on the queue log |
| C48 | Activity outputs of different tasks do not overwrite each other | partial | Outputs | injectivity of the key; neg for dotted names |
| C49 | A patch replaces the mappings of a task | partial | Support | choice of mappers; neg: patches have no effect |
| C50 | Compressed flow files are recognised | partial | Support | case analysis; neg: no gzip file is recognised |
| C51 | The skip-propagation option does not change which tasks execute | proved | SkipOption, Engine | the option is not read: equality of runs |
| C52 | Loop configuration is read as documented | partial | DefinitionSer | case analysis; neg: kind of task not compared |
| C53 | Subflow identifiers stay unique after a restore | partial | Serial | invariant over new subflows; neg for identifiers of ended subflows |
| C54 | An on-demand flow delivers its result once | partial | OnDemand, Recording, ConcDemand | invariant of the loop with steps of an instance without recorder; equality with an ordinary run while no called flow fails; neg for limit, identifier, mapping errors, failing and panicking called flows. With concurrent task execution: invariant over the phases of the run that relates what was delivered to whether the limit was exceeded (ConcDemand); neg: a second result after the error of the limit |
| C55 | Task events come in order | proved | Instance, Events | invariant on the trace, mirrored in the posted events |
| C56 | Every flow instance announces one start and one end | partial | Instance, Events | instance invariant over all operations; graph invariant: the end is reported at most once for each finished end task; neg: Completed is announced twice |
| C57 | Failed events carry the error | partial | Instance, Events | step theorem for hosts of subflows; neg in general for flows (invariant) and for failing activities |
| C58 | Flow events report inputs and outputs | partial | Events | map lemmas on the contents of the event; neg: outputs are not the returned data |
| C59 | Flow events name the parent flow | partial | Events | invariant on hosts; neg for nested subflows |
| C60 | Task events report the data of the task | partial | Events | map lemmas; neg: Started precedes the input mapping |
| C61 | A task with unacceptable data fails | partial | Engine | invariant on calls, induction over attempts; neg: outputs of resumed tasks are not validated |
| C62 | Coverage reports exactly what was executed | proved | Cover | invariant relating entries and traces; induction over the run for the list of ended evaluations |
| C63 | An interceptor that overrides nothing changes nothing | partial | Cover | by construction with a coverage object; invariant and neg without one |
| C64 | Coverage tells the main flow from the error handler | partial | Cover | invariant on flags; neg: tasks of the error handler of a subflow are flagged |
| C65 | Tasks of the error handler run only after the error handler was started | proved | Engine | invariant on objects, frames and traces |
| C66 | An activity that fails fails its task | proved | Engine, Loops, Behavior | induction over the attempts of one evaluation; the outcome is then followed through the step |
| C67 | A task waits until its asynchronous activity is finished | partial | Engine, Loops, Behavior | induction over attempts; neg: a resumed activity that is not finished counts as done |
| C68 | Retry settings are read as written | proved | DefinitionSer | evaluation of the reader against the written settings |
| C69 | Concurrent mode: events are in order | proved | Concurrent | invariant of all interleavings: the trace is in order, queue and goroutines hold ready tasks only |
| C70 | Concurrent mode: a flow completes only when its work is done | partial | Concurrent | effect of every step on the flow status; neg: an interleaving |
| C71 | Concurrent mode: a finished flow stays finished | partial | Concurrent | effect of every step on the flow status; neg: interleavings |
| C72 | Concurrent mode: a task is executed at most once | partial | Concurrent | counting tokens: entries, scheduled and executing instances and ends of a task are at most one; refuted by a run for joining tasks and an error handler; until the handler starts by the invariant of C73 |
| C73 | Concurrent mode: without an error handler no task is executed twice | proved | Concurrent | every step is classified by its effect (`Move`); invariant: an instance of a joining task is in the table until the task begins, and the link rows still to be written are those of links not decided yet, so the last of them decides, once |
| C74 | Concurrent mode: errors are not lost | proved | Concurrent | the debt of an error (a goroutine is about to handle it, or it was handled) is kept by every step; the entries of the handler are carried by a goroutine until they are entered, for instances of the handler are known only if they were entered |
| C75 | Concurrent mode: nothing is left out | proved | Concurrent | invariant: a task that has not begun has a predecessor that has not ended, or a goroutine carries an entry for it; a link of an ended task is decided or will be by a goroutine that enters its target afterwards; a task that has begun is queued, executed, waits or has ended; for all tasks by induction on the rank |
| C76 | Reconfiguration applies exactly the given settings | partial | Activity | induction over the descriptions with distinct identifiers; the loop over the settings of one task by induction; refuted by runs |
| C77 | Cleanup reaches every activity | partial | Activity | induction over the tasks; refuted by runs |
| C78 | Constants are converted to declared types when a flow is loaded | proved | Activity | lookup in the result of the conversion loop by induction; inversion of `createActivityConfig` |
| C79 | Concurrent mode: a flow without conditions skips nothing and does not block | proved | Concurrent | invariant: if no link has a condition, the goroutine of an ended task writes followed after not followed for each link before it enters a successor; so a task all of whose links are decided when it is entered has a followed one; the deadlock theorem of C43 applies |
| C80 | Concurrent mode: executions end | proved | Concurrent | every step costs one of a budget: frames and queue items are worth what they can still cost, a task pays once when it begins and once when it ends (C73) |
| C81 | A flow is loaded exactly if its activities are available and fit | proved | Activity | equivalence of `createActivityConfig` with its steps, each step characterised separately (references, settings, constants, schemas) |
| C82 | Values stored in a flow stay until a task that writes them is executed | proved | Engine, Spec/Attrs | `Writes` lists, from the environment alone, what an execution of a task can write (activity, resumed activity, output mapping, accumulation, error data). Frame proof over all functions of an evaluation and of the handling of its result: an attribute that the task does not write is kept; steps that evaluate nothing keep all attributes; other instances are covered by C24. The state in which the output mapping was applied is exhibited (`Mapped`), and the value is carried on by induction over the steps. |
| C83 | References in expressions refer to the current data | proved | Engine, Resolve, Spec/Resolve | the names the resolvers look up are shown to be written only by executions of the task concerned (`writes_outputs`, `writes_error`, from the injectivity of the names); C82 and C46 then give the value in all later states. `$iteration` reduces to the iteration variable, which C20 relates to the calls. |
| C84 | An activity is called with the inputs its mapping yields from the current data | proved | Engine, Spec/Inputs | `C84_only` is a non-interference statement: replacing the activities by any others that agree on states where the task has exactly its mapped inputs (`Fed`) changes no execution; proved by congruence through all functions that reach the call of an activity. `C84_call` exhibits the call; `C84_data_flow` combines it with C83. |
| C85 | A run executes the requested flow with exactly the supplied inputs | partial | Launch, Spec/Launch | case distinction over operation and options; attributes of the started instance from startInstance_calm; restart from the restart theorems of C33; four negations |
| C86 | The tester starts, restarts and resumes what the request says | partial | Launch, Spec/Launch | the requests are runs with particular options, so C85 and C33 apply; negations for attributes and data at once and for every resume |
| C87 | A detached call starts the called flow and never keeps the caller waiting | partial | Launch, Engine subflowInputs, Spec/Launch | a detached call is a run of a new action, so C85 applies; exact condition for the result of the task; the declared defaults are lost (negation) |
| C88 | A restarted flow continues as the original would have | partial | Resume, Serial, Launch, Engine, Spec/Resume | simulation: the states of the two runs correspond under a renaming of task objects, every function of the engine preserves the correspondence, induction over the steps; for acyclic flows of plain tasks the condition at the start follows from an invariant (objects of tasks that have not begun are blank; finished tasks of the table are to be released); negations for loops, returned results and error handlers in progress |
| C89 | Tasks that wait for each other never execute | proved | Engine, Spec/Cycle | every trace is in order (invariant of C01); descent along the incoming links of the cycle by induction over the trace |
| C90 | The tester can be stopped and started again | partial | Server, Spec/Server | invariant of the state machine, read off the events; negations: no second start, IsStarted stays true, requests on open connections |
| C91 | Events identify the task and the flow instance | proved | Events, Engine | from C26 and the definition of the events |
| C92 | Spans are finished once and nest as flows and tasks do | partial | Spans, Spec/Spans | invariants of the run with tracing: the context of a task is its newest span, and a small automaton (none, opened, closed) says which operations may follow; ends of flow spans counted against status reports; negations: doubled iterators, waiting tasks entered again, flows completed twice, failing handlers, stalled flows |
| C93 | A flow pauses only between attempts and between rounds | partial | Delays, Spec/Delays | the run with a log of attempts and pauses: induction over the attempts of an evaluation gives the log as attempts separated by the interval; invariant that pauses before retries have the stored length; negations: iterators pause after the last round, and before a called flow is executed |
| C94 | A state recorder is told of the start, of every step and of the end of a run | partial | Recording, ConcRecord, Spec/Recording | invariant of the run with its log: start record, then the states recorded, the last one being the present state between steps; counting and position of the records while no called flow fails; negations: step limit, stalled flows, original identifier, states recorded within a step. Concurrent mode (ConcRecord): invariant relating the log to the phase of the run of C100; negations: no states after steps, status of the end record |
| C95 | The interface of a called flow is determined once, however many tasks ask for it at the same time | partial | Interface, Spec/Interface | invariant of the double-checked lock over all interleavings; continuation lemma for what callers read; a caller alone executed step by step; negation: a flow replaced later keeps its old interface |
| C96 | A loop task that is retried repeats the failed round, not the loop | partial | Engine, Spec/Rounds, Spec/Attempts | every evaluation of a loop task is a sequence of attempts (C19) that all see the same loop position; position of the loop as an invariant of the run, counted by the evaluations started before; negation: the retries are counted for the whole loop |
| C97 | Executing a flow without circles comes to rest | partial | Engine, Spec/Bound, Spec/Graph | a cost for entering, running and calling each task, computed along the rank of the links and the depth of the calls; the sum over queue, stack and instances decreases with every step; negation: a loop of seven steps as an invariant |
| C98 | A flow that only uses task types its model provides is accepted | partial | Registry, DefinitionSer | induction over the registrations: validators and models agree; negation: a model registered as default only, named by the flow |
| C99 | The tester answers every request truthfully | partial | Service, Launch | case analysis of the outcome of a run against known flows, models and saved tasks; negations for restarts and resumes |

All properties can be expressed in an executable model; none is marked not applicable.

## 4. Disagreements between code and expectation

Found while reading; each one with a property in brackets is a theorem (see `MANIFEST.json`).

1. `Skip` (taskbehavior.go 309) has a named result `propagateSkip` that shadows the package variable, so
   `FLOGO_TASK_PROPAGATE_SKIP` has no effect (C51).
2. A task that is skipped and released while a later entry for it is still pending is entered again. It stays in state Entered
   for ever, so the flow never completes (C08), or it is evaluated a second time (C07).
3. A failing settings mapper ends the loop that enters successors; the task is ready but in no queue and the flow stays active
   for ever (C08).
4. Asynchronous loop iterations: `PostEval` sets Done and asks for a repeat; `execTask` drops work items of Done tasks (C22).
5. `HandleGlobalError` clears the task table of the top-level instance, also when a subflow fails (C16).
6. A failing error handler leaves the error result nil; in some subflow paths the host is never resumed (C15, C25).
7. `GetReturnData` caches, so observing a running flow changes its result (C28). An explicit return with nil data is replaced by
   the declared outputs (C12).
8. The error of an explicit return of a subflow is dropped (C12, C25).
9. Stale work of a finished subflow still executes and may change its status (C11).
10. A flow that ends while Active delivers no result; replies and exception assertions add results; a failure in the last
    allowed step is reported as a step limit error (C17, C13). The concurrent loop executes one item more than the limit (C18).
11. Post-evaluation retries errors that are not retriable (C19).
12. A caller attribute with the name of a context entry replaces it (C27).
13. In concurrent mode `enterTasks` locks a mutex recursively when a task is skipped, and `UpdateAttrs` locks twice (C43). A
    predecessor that finishes late enters a join again after its release (C44). Subflow instances have no lock at all.
14. `StepsToSnapshot` lets old attribute values win, never returns subflows, ignores deletions, loses queue changes and modifies
    the steps it reads (C36). `Snapshot` drops subflows and pending work (C37).
15. Restoring an instance resets the work item counter (C32), reuses identifiers of ended subflows (C53), loses hosts of subflows
    and panics on some documents (C31). Restart reorders, loses or panics on pending work and may change the status of the wrong
    task (C33). Restart with step 0 records step 0 twice (C34).
16. `EvalLink` turns a panic into "not followed" (C45).
17. An error in the input mapper of a task with an error link leaves no flow-wide error object (C46).
18. Interceptors: skip marks are looked up by task, mock marks by "flow-task"; the other form is ignored (C41).
19. Outputs are stored under "task.name" without escaping, so dotted names collide (C48); names that begin with `_W.` are not
    ordinary attributes (C29).
20. Gzip detection compares byte 2 instead of byte 1 and panics on short files (C50). A patch's mappers are never assigned (C49).
21. `Initialize` returns nil for an unknown recording mode, leaving the action uninitialised (C38).
22. Definitions: of two tasks with one identifier the last is kept; unknown link types are read as dependencies (C30); the kind of
    a task is not compared with its loop settings, unreadable accumulate settings mean off, a delay is checked without a loop
    (C52); untyped tasks are always accepted, the default model can be replaced later, models may have an empty name (C40).
23. On-demand: the first result carries a method value instead of the identifier, a failure at the limit gives two results, mapping
    errors are dropped (C54).
24. Several `otherwise` links of a task: only the last one is followed. Parallel links to the same target schedule it several
    times; this is why a safe order of links excludes them.
25. After an unhandled error the old branches keep running next to the error handler.
26. Events: a flow may be announced Completed twice, and a skipped task is announced Skipped twice (C56). The Failed event of a flow
    is posted before its error is stored, and that of a task does not look at the error of its activity (C57). Completed events
    report as output the attributes named by the return data, not the return data (C58). Events of nested subflows name the
    top-level flow as parent (C59). Started events precede the mapping of the inputs (C60).
27. A subflow that failed keeps running its other branches. If these end, the subflow is completed as well: the completion erases the
    error handed to the parent task (C25), and a parent task that was already rescued by an error link is evaluated again (C07).
28. The outputs of a task that waited (subflow, asynchronous activity) are not validated against the schema (C61).
29. An interceptor without a coverage object (the tester takes it from JSON as it is) makes every task that ends panic: flows fail
    that would complete without the interceptor (C63).
30. The main-flow flag of a task entry is that of the top-level instance, that of a link entry is that of its own instance; both say
    whether an error is being handled, not to which graph the task or link belongs (C64).
31. The accumulated output of task `B.x` and the output `x` of task `B` are stored under the same name: the second overwrites the
    first (C23).
32. `PostEval` of an asynchronous activity may answer that it is not finished. The answer is used to decide whether outputs are
    stored, but the task is done in any case (C67).
33. In concurrent mode a task marks a followed link as not followed first and enters its successors some time after it is done.
    In between other goroutines see the intermediate state: a join can be skipped although a link to it is followed (C44), and
    the flow can complete although a followed link leads to a task that was not entered (C70).
34. In concurrent mode nothing prevents two goroutines from ending the flow: it can complete twice, or fail after it completed,
    and an error handler that starts then is not executed (C71).
35. An unhandled error ends the flow at once, so that the schedule decides which tasks of other branches are executed (C06). With
    an error handler the other branches go on, but the handler can complete the flow while one of their tasks is pending (C09).
36. In concurrent mode the start of the error handler empties the task table, but the links keep their status: a predecessor that
    enters a joining task afterwards makes it execute a second time (C72).
37. Reconfiguration stores the value of a setting before it looks at the error: a setting that cannot be resolved is lost, others are
    changed or not depending on the order of a Go map, the activity is not told, and the caller gets no error. Tasks that had no
    settings ignore new ones; a task without activity is a nil pointer dereference (C76).
38. Cleanup ignores the tasks of the error handler and dereferences a nil pointer for tasks without activity (C77).
39. A task that calls a flow passes every declared input of the called flow, nil for those the task has no input for, and drops all
    others. The called flow therefore never sees the declared defaults of its inputs (C27).
40. An action created for a resource ignores the flow named in the run options: it executes its own flow under the address of the
    other one. An action created for another flow asks the flow manager even if the options name a resource (C85).
41. Resuming an instance that was read from a document dereferences a nil pointer, whatever it contains; so does an operation that
    does not exist (C85). The resume request of the tester therefore never resumes anything (C86).
42. The tester ignores the data of a start request that also has attributes (C86).
43. The saved state has neither the position of a loop, nor returned results, nor the flag that an error is being handled. After a
    restart a loop starts from the beginning; a flow that has returned to its caller waits for tasks it would not have waited for and
    loses the results; a failure within the error handler starts the error handler again; a task of the error handler whose id is also
    used in the main flow becomes the task of the main flow, and the main flow is continued after it (C88).
44. The tester server never forgets its listener: after `Stop` it cannot be started again, `IsStarted` stays true, and clients that
    keep their connections open are served even after `WaitStop` reported success (C90).
45. Spans are lost or finished twice (C92): the span of an iterator that is executed again after it failed is finished twice; that of
    a waiting task that is entered again is never finished; that of a called flow is finished as often as the flow is completed, and
    never if its error handler fails because of a link; that of the top-level flow is never finished if the flow stalls.
46. Delays of iterators (C93): docs/model.md documents a delay between iterations. An iterator also waits after its last iteration,
    and if its activity calls a flow it waits before the called flow executes its first task instead of after it. Do-while loops
    behave as documented.
47. On-demand flows and failing called flows (C54): the on-demand action creates its instance without an instance recorder
    (`ondemand/action.go` line 208), and a called flow that fails makes the engine record its state (`ind_instance.go` lines 643 and
    706), which dereferences the missing recorder. The recovery of `execTask` does nothing, so the calling task is never resumed and
    no result is delivered; if the called flow failed because of a recovered panic, the process ends. The
    same happens to ordinary flows if a recording mode is set but no service records (`action.go` lines 71-106). All other properties
    assume that the recorder is there or that recording is off.
48. States recorded within a step (C94): when a called flow fails, a state is recorded before the error is given to the calling task,
    and another one at the end of the same step. A restart from the former can never continue.
49. Ends that are not recorded (C94): a run that reaches its step limit is never recorded as ended, a run that stalls is recorded as
    ended with the status Started, and the record of the end does not name the original instance.
50. The interface of a called flow (C95) is remembered by the calling activity for ever: a flow that is replaced later
    (`support/definition.go` `SetResource`) is called with the names of the inputs of the flow it replaced.
51. The retries of a loop task (C96) are counted for the whole loop, not for each round (`model/simple/retry.go` 24-53 keeps the
    number in the working data of the task instance, which lives as long as the loop): a loop whose rounds each need one retry
    fails at the second round if one retry is configured.
52. An execution without circles and loops may go on for ever (C97). Every failing task of a called flow schedules the calling task
    (`instance/ind_instance.go` 646-651 and 709-714), also when the called flow has failed before. If the first of these work items
    ends the calling task with an error that the flow follows, the second one finds a failed task and evaluates it again (lines
    401-468), which starts the called flow once more. The instances and sub-flow numbers grow without bound; only the step limit
    ends such an execution.
53. A flow that names the default model is refused (C98). `RegisterDefault` (`model/registry.go` 59-75) stores the model under its
    name but its validator only under the empty name, so the type check of the definition (`definition/definition_ser.go` 153-158)
    finds no validator for the name and refuses every task type; the simple model is only registered this way (`action.go` 121).
54. The tester does not answer every request (C99). A restart request without saved instance, or with a saved task that the flow does not
    have, panics in the handler and the connection is closed without an answer (`tester/service.go` 153-197, the recovery is commented
    out); a resume request panics always (disagreement of C85) and the recovery in `ResumeFlow` turns this into an empty answer with
    status 200, as if the flow had been resumed.
55. With concurrent task execution the result of a run is neither final nor certain (C100). The loop ends as soon as the status is not
    active and does not wait for the goroutines: the caller gets return data and then the flow fails, or activities are still executed
    after the result. If the flow stays active without work (C44), the loop spins for ever and no result is delivered. The limit is
    tested with `stepCount > max`, so that one item more than the limit is executed, unlike in the sequential loop.
56. A declared output with a default always has the default in the result, whatever the flow computed (C101): the loop of `GetReturnData`
    overwrites the attribute with the default. A subflow without an explicit return gives its caller no outputs at all, since
    `handleTaskDone` passes on the field `returnData` instead of calling `GetReturnData`.
57. The verdicts of a unit test (C102): the assertions of a task in a loop say only what held after the last iteration; an assertion on the error of an
    activity that was evaluated in a failing attempt becomes AssertionNotExecuted by a successful retry; an activity that panics stays
    NotExecuted although the flow fails; a task whose called flow fails stays Pass; the result of the flow is Pass whatever its assertions say.
58. Not every run ends (C103). If a flow that is called as a subflow has a link A to B, and its error handler has tasks with the same
    identifiers and a link B to A, a failure of a link expression can leave A in the table of tasks with all its incoming links decided:
    `HandleGlobalError` clears only the table of the outermost flow (line 684). When the handler skips B, A is entered and skipped, which
    enters and skips B, and so on. `handleTaskDone` and `enterTasks` call each other for ever; in Go the stack overflows, which ends
    the whole process. The step limit does not help, since no work item is taken.
59. A panic outside an activity is ignored while a flow handles an error (C104). If the condition of a doWhile loop in an error handler is
    not a boolean, the type assertion (dowhilebehavior.go line 87) panics; `execTask` recovers and does nothing, as its comment says
    (ind_instance.go line 420). The task is neither finished nor failed, and the flow stays active for ever with nothing to execute.
60. The application name can change while the program is running (C105). A variable that is empty when the name is asked for is read again
    the next time (support/env.go lines 52-55): flows started before and after it is set report different names, whereas a later change is
    not noticed.
61. The two ways of executing a flow read the step limit at different times (C105): action.go line 45 when the program is loaded, the loop of
    concurrent task execution before every step (ind_instance.go line 347). If the variable is changed in between, the limits differ, and the
    error message (action.go line 379) names the limit that was not used.
62. The error handler of a called flow need not complete it (C104). `HandleGlobalError` clears the task table of the top-level flow, not that of
    the flow that failed (ind_instance.go line 684). A task of the called flow that was waiting for the failed task therefore stays in its
    table, unfinished; when the error handler has ended, `TaskDone` (flowbehavior.go lines 25-49) finds it, the called flow is never
    completed, and the calling task waits for ever. The same flow started as the main flow completes.
63. The documentation of do-while loops counts one execution too few (C21): docs/model.md describes a task with the condition
    `$iteration[index] < 5` as executed 5 times. The condition is evaluated with the index of the round that has just ended
    (dowhilebehavior.go lines 49-50), so the activity is executed 6 times (C21_index_condition, for every number).
64. A second application in the same process executes the flows of the first (C106): `Initialize` returns at once if the package was
    initialised before (action.go lines 61-63), so the resources of the second one are never looked at.
65. The flow action and the on-demand flow action have flow managers of their own, and called flows are looked up in the one that was
    initialised last (C106): a remote flow is loaded once more, possibly in another version, when a task calls it.
66. An unknown recording mode makes `Initialize` return early without an error (action.go lines 96-99); afterwards every look-up of a flow
    dereferences a nil pointer (C106, C38).
67. `SetResource` replaces a flow for the tasks that call it, but not for actions that were created before (C106): these keep the
    definition (action.go lines 149-151).
68. Work that is pending when an error handler starts is not cancelled (C107): `HandleGlobalError` (instance/ind_instance.go lines 666-719)
    clears the table of tasks but leaves the queue as it is, so that parallel tasks of the failed flow are executed after the error
    handler was started, and so are their successors.
69. Only the table of tasks of the top-level flow is cleared when an error handler starts (instance/ind_instance.go line 684). In a called
    flow a task of the error handler with the identifier of a task in progress is therefore never executed: the old task is found
    in the table and entered instead (C104_negation_identifiers).
70. The error data of the flow depend on the order of parallel tasks (C108): every failing task stores its error under `_E`
    (instance/taskinst.go lines 379-384), also if an error link handles it, so that after two parallel failures `$error` shows the
    one that was executed last.
71. The outputs of a task instance are not reset between executions (instance/taskinst.go lines 298-447): in a loop or after a retry an output
    to which the last execution has given no value still has the value of an earlier one, also in the accumulated outputs
    (C109_negation_kept, C109_negation_loop). Outputs given in the flow definition are only visible to legacy activities
    (definition_ser.go lines 333-343) and never stored (C109_negation_configured); expressions among them are not evaluated
    (C109_negation_expression).
72. A condition of a do-while loop that is no truth value (a type assertion, dowhilebehavior.go line 87) panics outside of the activity. `execTask`
    recovers and hands the failure to the error handler of the flow or fails the flow; error links of the task are not considered
    (ind_instance.go lines 403-422, C110_negation). A condition that cannot be computed is handled by the error links (C110_negation_link).
73. `Definition.GetLink` looks only among the links of the flow itself (definition.go lines 60-63), although the numbers of the links of the error
    handler continue those of the flow and `GetExpressionLinks` lists them: no link of an error handler is found by its number (C111_negation).
    `Instance.init` uses it for the links of restored states.
74. The counter behind the task instance identifier is incremented only if the task has a tracing context (ind_instance.go lines 457-463). Without
    tracing all rounds of a loop have the same identifier in task events (C112_untraced, C112_negation_turns). Entering a task resets the identifier but
    not the counter (line 736), so a task that is entered again starts with an identifier that its earlier spans had (C112_negation_entered).
75. The span of a called flow is tagged with the top-level flow as its parent flow (`inst.master`, ind_instance.go lines 958-961), also if it was called
    by a called flow; its parent span is one of the calling flow (C113_negation). Flow events have the same defect (C59).
76. With concurrent task execution the on-demand action delivers the error of the limit and goes on to look at the status (ondemand/action.go lines
    238-241 and 258-265), so the data or the error of the flow can follow as a second result (C54_negation_concurrent). The other action returns there.
77. With concurrent task execution a state recorder gets no record after any step (`DoStepInLoop` never calls `RecordState`, ind_instance.go lines
    338-385), so neither snapshots nor steps of the run exist (C94_negation_concurrent). The status is read again for the record of the end (action.go
    line 441) while tasks still run: the caller got data, the record says Failed (C94_negation_concurrent_status).
78. Interceptors reach tasks they are not meant for. The key is flow name, hyphen, task id (util.go lines 134, 213, 230), so that a mock for task
    `A` of flow `f-x` also replaces task `x-A` of flow `f` (C114_negation_name). Inputs and skipping are looked up by the task id alone (line 91) and so
    apply to the tasks of that id in all called flows, while a key with the flow name has no effect (C114_negation_id). A task of the error handler
    shares the interceptor of the task of the main part with the same id (C114_negation_handler).
79. Mocked outputs are not validated: the outputs are checked against their schema before the interceptor sets them (taskinst.go lines 403-419), so that
    a unit test passes with a mock that the schema of the activity excludes (C115_negation).
