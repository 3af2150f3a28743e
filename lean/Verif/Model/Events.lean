import Verif.Model.Run

/-
The events posted to listeners: instance/flowevents.go, instance/taskevents.go. Which events are posted, and which errors they
carry, is recorded in `Inst.posted` (`Verif.Model.Instance`); this file has their names and their other contents.

Not modelled: time stamps, the type and the reference of the task, the delivery of the events (package
`core/engine/event`, outside this repository).
-/

namespace Flow

/-- `convertFlowStatus`, flowevents.go lines 116-130, with the constants of support/event/flowevents.go lines 9-19. The status
has only these five values, so `UNKNOWN` is not needed. -/
def FlowStatus.eventName : FlowStatus → String
  | .notStarted => "Created"
  | .active => "Started"
  | .cancelled => "Cancelled"
  | .completed => "Completed"
  | .failed => "Failed"

/-- `convertTaskStatus`, taskevents.go lines 75-93. -/
def TaskStatus.eventName : TaskStatus → String
  | .notStarted => "Created"
  | .entered => "Scheduled"
  | .skipped => "Skipped"
  | .ready => "Started"
  | .failed => "Failed"
  | .done => "Completed"
  | .waiting => "Waiting"

/-- `flowEvent`, flowevents.go lines 11-18. -/
structure FlowEvent where
  name : String
  id : String
  parentName : String := ""
  parentId : String := ""
  hostTask : Option (String × Nat) := none
  status : String
  input : AMap String Val := []
  output : AMap String Val := []
  err : Option Err := none

/-- `outData != nil && outData[name] != nil`, flowevents.go line 95. -/
def isReturned (data : Option (AMap String Val)) (k : String) : Bool :=
  match data with
  | none => false
  | some m =>
    match m.get? k with
    | none => false
    | some .null => false
    | some _ => true

/-- Lines 92-106 for a started flow: the attributes named by the return data are reported as output of a completed flow, and not
at all before; all other attributes are reported as input. -/
def Inst.reported (I : Inst) : AMap String Val × AMap String Val :=
  (I.attrs.filter (fun p => !isReturned I.returnData p.1),
   if I.status = .completed then I.attrs.filter (fun p => isReturned I.returnData p.1) else [])

/-- Name of the task of task object `o` of flow instance `i`. -/
def Eng.hostName (e : Eng) (h : Nat × Nat) : String × Nat :=
  match e.obj? h.1 h.2 with
  | none => ("", h.2)
  | some ob => (e.taskName h.1 ob.task, h.2)

/-- `postFlowEvent`, flowevents.go lines 69-114: the event that describes instance `I` in its present status. The call of
`GetReturnData` (line 92) fixes the return data. -/
def Eng.flowEvent (e : Eng) (I : Inst) : FlowEvent :=
  let rep := if I.status = .notStarted then ([], []) else I.fixReturnData.reported
  { name := I.defn.name
    id := e.instID I
    parentName := if 0 < I.subflowId then e.topName else ""
    parentId := if 0 < I.subflowId then e.id else ""
    hostTask := I.host.map e.hostName
    status := I.status.eventName
    input := rep.1
    output := rep.2
    err := if I.status = .failed then I.returnError else none }

/-- The metadata of an activity: names and default values of its inputs and outputs. -/
structure ActMeta where
  inputs : List (String × Val)
  outputs : List (String × Val)

/-- The loops of taskevents.go lines 140-150, 153-163, 167-176, 180-189: every declared name with the value of the task or
else the default. -/
def reportedValues (declared : List (String × Val)) (vals : AMap String Val) : AMap String Val :=
  declared.map (fun p => (p.1, (vals.get? p.1).getD p.2))

/-- `taskEvent`, taskevents.go lines 12-22. -/
structure TaskEvent where
  name : String
  flowName : String
  flowId : String
  status : String
  input : AMap String Val
  output : AMap String Val
  err : Option Err

/-- `postTaskEvent`, taskevents.go lines 95-193, for a task whose activity has metadata with non-nil inputs and outputs. -/
def Eng.taskEvent (e : Eng) (i : Nat) (I : Inst) (ob : Obj) (md : ActMeta) : TaskEvent :=
  { name := e.taskName i ob.task
    flowName := I.defn.name
    flowId := e.instID I
    status := ob.status.eventName
    input := reportedValues md.inputs ob.inputs
    output := if ob.status = .done then reportedValues md.outputs (ob.outputs.getD []) else []
    err := if ob.status = .failed then ob.returnError else none }

end Flow
