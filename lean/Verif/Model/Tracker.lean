import Verif.Model.Run

/-
The change tracker (`instance/instance_chg.go`): the record of one step and how the calls of the engine fill it.

Not modelled: the recorder's debugger mode (return data, task inputs, link ends), the lock of concurrent mode, `FlowId`.
A status is recorded as the Go integer; the model keeps the constant itself, the constant with code 0 being the zero value.
-/

namespace Flow

/-- `change.Type`, state/change/change.go lines 4-13. -/
inductive Chg
  | add | update | delete
  deriving DecidableEq, Repr

/-- `change.Task` and `change.Link`, change.go lines 27-38; a new change is an addition with status 0. -/
structure KeyChg (S : Type) where
  chg : Chg := .add
  status : S
  deriving DecidableEq, Repr

/-- `change.Flow`, change.go lines 15-25. -/
structure FlowChg where
  newFlow : Bool := false
  uri : String := ""
  subflowId : Nat := 0
  taskId : TaskId := ""
  status : FlowStatus := .notStarted
  attrs : AMap String Val := []
  tasks : AMap TaskId (KeyChg TaskStatus) := []
  links : AMap LinkId (KeyChg LinkStatus) := []

/-- `change.Queue`, change.go lines 40-44. -/
structure QueueChg where
  chg : Chg := .add
  subflowId : Nat := 0
  taskId : TaskId := ""
  deriving DecidableEq, Repr

/-- `state.Step`: identifier, flow changes by subflow id, queue changes by work item id. -/
structure StepRec where
  id : Int := 0
  flows : AMap Nat FlowChg := []
  queue : AMap Nat QueueChg := []

/-- Calls of the change tracker, interface `ChangeTracker`, instance_chg.go lines 17-48. `FlowDone` and `SubflowDone` do
nothing outside the debugger mode (lines 176-200, 219-245). -/
inductive Call
  | flowCreated (uri : String) (s : FlowStatus)
  | subflowCreated (sid : Nat) (uri : String) (host : TaskId) (s : FlowStatus)
  | setStatus (sid : Nat) (s : FlowStatus)
  | attrChange (sid : Nat) (name : String) (v : Val)
  | taskAdded (sid : Nat) (uri : String) (t : TaskId) (s : TaskStatus)
  | taskUpdated (sid : Nat) (uri : String) (t : TaskId) (s : TaskStatus)
  | taskRemoved (sid : Nat) (t : TaskId)
  | linkAdded (sid : Nat) (l : LinkId) (s : LinkStatus)
  | linkUpdated (sid : Nat) (l : LinkId) (s : LinkStatus)
  | linkRemoved (sid : Nat) (l : LinkId)
  | itemAdded (id : Nat) (t : TaskId)
  | itemRemoved (id : Nat) (t : TaskId)

/-- Update of the change of one flow, which is created if missing: the beginning of `SetStatus` (lines 136-140),
`AttrChange`, `getTaskChange` (lines 371-380) and `getLinkChange` (lines 397-402). -/
def StepRec.modFlow (s : StepRec) (sid : Nat) (f : FlowChg → FlowChg) : StepRec :=
  { s with flows := s.flows.set sid (f ((s.flows.get? sid).getD {})) }

/-- `getTaskChange`, lines 369-393, followed by the update `g` of the change of the task. -/
def FlowChg.modTask (c : FlowChg) (uri : String) (t : TaskId) (g : KeyChg TaskStatus → KeyChg TaskStatus) : FlowChg :=
  { c with taskId := t
           uri := if c.uri = "" then uri else c.uri
           tasks := c.tasks.set t (g ((c.tasks.get? t).getD { status := .notStarted })) }

/-- `getLinkChange`, lines 395-414, followed by the update `g` of the change of the link. -/
def FlowChg.modLink (c : FlowChg) (l : LinkId) (g : KeyChg LinkStatus → KeyChg LinkStatus) : FlowChg :=
  { c with links := c.links.set l (g ((c.links.get? l).getD { status := .unset })) }

/-- `getQueueChange`, lines 354-367, followed by the update `g` of the change. -/
def StepRec.modQueue (s : StepRec) (id : Nat) (g : QueueChg → QueueChg) : StepRec :=
  { s with queue := s.queue.set id (g ((s.queue.get? id).getD {})) }

/-- The effect of a tracker call on the current step: `FlowCreated` 163-174, `SubflowCreated` 202-217, `SetStatus` 131-143,
`AttrChange` 145-161, `TaskAdded` 266-273, `TaskUpdated` 275-287, `TaskRemoved` 289-296, `LinkAdded` 298-309,
`LinkUpdated` 311-323, `LinkRemoved` 325-332, `WorkItemAdded` 247-254, `WorkItemRemoved` 256-264. -/
def StepRec.call (s : StepRec) : Call → StepRec
  | .flowCreated uri st => { s with flows := s.flows.set 0 { newFlow := true, uri := uri, status := st } }
  | .subflowCreated sid uri host st =>
    { s with flows := s.flows.set sid { newFlow := true, uri := uri, subflowId := sid, taskId := host, status := st } }
  | .setStatus sid st => s.modFlow sid (fun c => { c with status := st })
  | .attrChange sid n v => s.modFlow sid (fun c => { c with attrs := c.attrs.set n v })
  | .taskAdded sid uri t st => s.modFlow sid (fun c => c.modTask uri t (fun k => { k with status := st }))
  | .taskUpdated sid uri t st => s.modFlow sid (fun c => c.modTask uri t (fun _ => { chg := .update, status := st }))
  | .taskRemoved sid t => s.modFlow sid (fun c => c.modTask "" t (fun k => { k with chg := .delete }))
  | .linkAdded sid l st => s.modFlow sid (fun c => c.modLink l (fun k => { k with status := st }))
  | .linkUpdated sid l st => s.modFlow sid (fun c => c.modLink l (fun _ => { chg := .update, status := st }))
  | .linkRemoved sid l => s.modFlow sid (fun c => c.modLink l (fun k => { k with chg := .delete }))
  | .itemAdded id t => s.modQueue id (fun q => { q with taskId := t })
  | .itemRemoved id t => s.modQueue id (fun q => { q with taskId := t, chg := .delete })

/-- `SimpleChangeTracker`, lines 123-129. -/
structure Tracker where
  stepCtr : Int
  cur : StepRec := {}

namespace Tracker

/-- `NewChangeTracker`, lines 114-121: the first step has identifier 0 whatever the start. -/
def new (start : Int) : Tracker := { stepCtr := start }

/-- A call of the tracker. -/
def call (t : Tracker) (c : Call) : Tracker := { t with cur := t.cur.call c }

/-- `ExtractStep(true)`, lines 334-352. -/
def extract (t : Tracker) : StepRec × Tracker := (t.cur, { stepCtr := t.stepCtr + 1, cur := { id := t.stepCtr + 1 } })

/-- The steps that are extracted if a step is recorded after each group of calls. -/
def steps (t : Tracker) : List (List Call) → List StepRec
  | [] => []
  | cs :: css => (cs.foldl call t).extract.1 :: steps (cs.foldl call t).extract.2 css

end Tracker

/-- The steps recorded for a new flow: the tracker starts with 0 (ind_instance.go line 78) and every step is recorded
(action.go lines 351 and 393, recorder.go lines 22-41). -/
def recordedNew (css : List (List Call)) : List StepRec := (Tracker.new 0).steps css

/-- The steps recorded for a flow restarted with `initStepId = k`: the tracker starts with `k - 1` (action.go line 276,
ind_instance.go line 893), and the first step is discarded if `k` is positive (action.go
lines 350-355). -/
def recordedRestart (k : Int) (css : List (List Call)) : List StepRec :=
  if k ≤ 0 then (Tracker.new (k - 1)).steps css else ((Tracker.new (k - 1)).steps css).drop 1

/-- The tracker call made together with an event of the trace of an instance: instance.go lines 96, 116, 129, 134, 208,
taskinst.go line 177, linkinst.go line 41. Evaluations, the start of the error handler and the emptying of the task table
are not reported to the tracker. -/
def callOf (sid : Nat) (uri : String) : Ev → Option Call
  | .taskAdded _ t => some (.taskAdded sid uri t .notStarted)
  | .taskStatus _ t s => some (.taskUpdated sid uri t.id s)
  | .taskRemoved t => some (.taskRemoved sid t)
  | .linkAdded l => some (.linkAdded sid l .unset)
  | .linkStatus l s => some (.linkUpdated sid l s)
  | .linkRemoved l => some (.linkRemoved sid l)
  | .flowStatus s => some (.setStatus sid s)
  | _ => none

/-- The task of a work item; `WorkItem.TaskID`, ind_instance.go lines 817-836. -/
def Eng.itemTask (e : Eng) (w : WorkItem) : TaskId :=
  ((e.insts[w.inst]?.bind (fun I => I.objs[w.obj]?)).map (fun ob => ob.task.id)).getD ""

/-- The tracker call made when the queue changes: ind_instance.go lines 397 and 324. -/
def Eng.queueCall (e : Eng) : QEv → Call
  | .added w => .itemAdded w.id (e.itemTask w)
  | .removed w => .itemRemoved w.id (e.itemTask w)

end Flow
