import Verif.Model.Snapshot

/-
Serialization of a running instance, restoring and restarting it: `instance/instance_ser.go` and `Restart` of
`instance/ind_instance.go`.

Simplification: encoding to JSON and back is the identity on the fields that are written; in particular attribute values
are assumed to survive it (in Go, numbers come back as float64). The JSON lists that come from a Go map are in the order of
the association list, so that a statement about all lists covers all orders of traversal.
-/

namespace Flow

/-- `serInstance`, instance_ser.go; the top-level instance uses the same fields of `serIndependentInstance`. A task instance
is written as its task id and status, a link instance as its link id and status. -/
structure SerInst where
  subflowId : Nat
  status : FlowStatus
  uri : String
  attrs : AMap String Val
  tasks : List (TaskId × TaskStatus)
  links : List (LinkId × LinkStatus)

/-- `serIndependentInstance`; a work item is written as its id, task id and subflow id. -/
structure Ser where
  id : String
  top : SerInst
  queue : List SnapItem
  subs : List SerInst

/-- `Instance.MarshalJSON`. -/
def Inst.marshal (I : Inst) : SerInst :=
  { subflowId := I.subflowId
    status := I.status
    uri := I.uri
    attrs := I.attrs
    tasks := I.tasks.map (fun p => (p.1, ((I.objs[p.2]?).map (·.status)).getD .notStarted))
    links := I.links }

/-- `NewWorkItem`, ind_instance.go lines 826-836: the task id and subflow id of the work item. -/
def Eng.itemOf (e : Eng) (w : WorkItem) : SnapItem :=
  { id := w.id
    subflowId := ((e.insts[w.inst]?).map (·.subflowId)).getD 0
    taskId := ((e.obj? w.inst w.obj).map (·.task.id)).getD "" }

/-- `IndependentInstance.MarshalJSON`: `none` if there is no top-level instance. The subflows are written in the order of
their identifiers. -/
def Eng.marshal (e : Eng) : Option Ser :=
  match e.insts[0]? with
  | none => none
  | some I => some
    { id := e.id
      top := I.marshal
      queue := e.queue.map e.itemOf
      subs := (List.range e.insts.length).filterMap (fun k => ((e.subflows.get? k).bind (fun j => e.insts[j]?)).map Inst.marshal) }

/-- A restored `Instance`: only these fields are set. Flow definition, host, error-handling flag, force-completion flag,
return data and error are zero. A restored task instance has a task id and a status. -/
structure RInst where
  status : FlowStatus := .notStarted
  uri : String := ""
  attrs : AMap String Val := []
  tasks : AMap TaskId TaskStatus := []
  links : AMap LinkId LinkStatus := []

/-- A restored work item; `task` is the pointer to a task instance: the subflow id of its instance and its key in the task
table, `none` for nil. -/
structure RItem where
  id : Nat
  subflowId : Nat
  taskId : TaskId
  task : Option (Nat × TaskId)
  deriving DecidableEq, Repr

/-- A restored `IndependentInstance`. `wiCounter` is not read from the document. -/
structure Restored where
  id : String := ""
  top : RInst := {}
  subs : AMap Nat RInst := []
  subflowCtr : Nat := 0
  wiCounter : Nat := 0
  queue : List RItem := []

/-- `Instance.UnmarshalJSON`. -/
def SerInst.restore (s : SerInst) : RInst :=
  { status := s.status
    uri := s.uri
    attrs := s.attrs
    tasks := s.tasks.foldl (fun m p => m.set p.1 p.2) []
    links := s.links.foldl (fun m p => m.set p.1 p.2) [] }

/-- The instances that the list `subFlows` yields. -/
def restoreSubs (l : List SerInst) : AMap Nat RInst := l.foldl (fun m s => m.set s.subflowId s.restore) []

/-- One work item: `none` is the nil pointer dereference for a subflow that is not in the document. -/
def SnapItem.restore (top : RInst) (subs : AMap Nat RInst) (w : SnapItem) : Option RItem :=
  if 0 < w.subflowId then
    match subs.get? w.subflowId with
    | none => none
    | some R => some ⟨w.id, w.subflowId, w.taskId, (R.tasks.get? w.taskId).map (fun _ => (w.subflowId, w.taskId))⟩
  else some ⟨w.id, w.subflowId, w.taskId, (top.tasks.get? w.taskId).map (fun _ => (0, w.taskId))⟩

/-- The loop over the work queue. -/
def restoreQueue (top : RInst) (subs : AMap Nat RInst) : List SnapItem → Option (List RItem)
  | [] => some []
  | w :: ws =>
    match w.restore top subs, restoreQueue top subs ws with
    | some x, some xs => some (x :: xs)
    | _, _ => none

/-- `IndependentInstance.UnmarshalJSON`; `none` is a panic. -/
def Ser.unmarshal (s : Ser) : Option Restored :=
  match restoreQueue s.top.restore (restoreSubs s.subs) s.queue with
  | none => none
  | some q => some
    { id := s.id
      top := s.top.restore
      subs := restoreSubs s.subs
      subflowCtr := s.subs.foldl (fun m x => max m x.subflowId) 0
      queue := q }

/-- `scheduleEval`, ind_instance.go lines 387-398, on a restored instance. -/
def Restored.schedule (r : Restored) (subflowId : Nat) (t : TaskId) : Restored :=
  { r with wiCounter := r.wiCounter + 1
           queue := r.queue ++ [⟨r.wiCounter + 1, subflowId, t, some (subflowId, t)⟩] }

/-- `newEmbeddedInstance`, ind_instance.go lines 99-133, on a restored instance: the identifier of the new subflow and the
new state. The new instance has not been started yet. -/
def Restored.newSub (r : Restored) (uri : String) : Nat × Restored :=
  (r.subflowCtr + 1, { r with subflowCtr := r.subflowCtr + 1, subs := r.subs.set (r.subflowCtr + 1) { uri := uri } })

/-- Outcome of `Restart`. -/
inductive RestartOut
  | ok (r : Restored)
  | error
  | panic

/-- `TaskInst.SetStatus` (taskinst.go lines 175-179) of a task instance of the top-level instance. -/
def Restored.setStatus (r : Restored) (t : TaskId) (s : TaskStatus) : Restored :=
  { r with top := { r.top with tasks := r.top.tasks.set t s } }

/-- One of the two identical blocks of `Restart` (lines 896-910, 912-926): the oldest item is taken; if it has a task
instance, the status is set to ready and the item is appended to the queue, otherwise it is lost. `init` is called for the
top-level instance only (line 890), so a task instance of a subflow has no instance and `SetStatus` dereferences nil:
`none`. -/
def Restored.rotate (r : Restored) : Option Restored :=
  match r.queue with
  | [] => some r
  | w :: ws =>
    match w.task with
    | none => some { r with queue := ws }
    | some (k, t) => if 0 < k then none else some { r.setStatus t .ready with queue := ws ++ [w] }

/-- `init`, lines 932-944: every task of the table must be found in the flow or in its error handler; `initTaskInst`
(taskinst.go lines 38-58) dereferences nil otherwise. -/
def resolvable (d : Def) (ts : AMap TaskId TaskStatus) : Bool :=
  ts.all (fun p => (d.task? ⟨false, p.1⟩).isSome || (d.task? ⟨true, p.1⟩).isSome)

/-- `Restart`, lines 873-930. `defs` is the lookup of the definition (an error, nil or a definition); that the model of the
definition is not registered is an error too, `modelOk` tells whether it is. `stepId` is the argument `initStepId`. -/
def Restored.restart (defs : String → Except Err (Option Def)) (modelOk : Bool) (id : String) (stepId : Int) (r : Restored) : RestartOut :=
  match defs r.top.uri with
  | .ok (some d) =>
    if modelOk then
      if resolvable d r.top.tasks then
        let r0 := { r with id := id, top := { r.top with status := .active } }
        if 0 < stepId + 1 then
          match r0.rotate.bind Restored.rotate with
          | none => .panic
          | some r1 => .ok r1
        else .ok r0
      else .panic
    else .error
  | _ => .error

end Flow
