import Verif.Model.Behavior
import Verif.Model.Loops

/-
A flow instance and the operations on a single instance: task objects, link data, entering, finishing, skipping and
releasing a task. `Verif.Model.Engine` combines instances into a running flow.
-/

namespace Flow

/-- `TaskInst`, instance/taskinst.go lines 60-83. The Go pointer to a task instance is an index into `Inst.objs`.
Working data (lines 186-203) is modelled by the fields used by the simple model: the iterator, the iteration variable
(key, value, index), the do-while index and the retry budget. Not modelled: `settings` (only whether applying the
settings mapper fails), `id`, `counter`, logger, trace context and the flags of the concurrent mode. -/
structure Obj where
  task : TaskRef
  status : TaskStatus := .notStarted
  returnError : Option Err := none
  inputs : AMap String Val := []
  outputs : Option (AMap String Val) := none
  iter : Option Iter := none
  iteration : Option (Val × Val × Int) := none
  dwIndex : Option Nat := none
  retry : Option Int := none


/-- Observable effects of one flow instance, newest first. They correspond to the calls of the change tracker
(`TaskAdded`, `TaskUpdated`, `TaskRemoved`, `LinkAdded`, `LinkUpdated`, `LinkRemoved`, `SetStatus`), to evaluations of
activities, to the start of the error handler, and to the emptying of the task table by it (`cleared`, which is not
reported to the change tracker). The trace is not read by the model. -/
inductive Ev
  | taskAdded (o : Nat) (t : TaskId)
  | taskStatus (o : Nat) (t : TaskRef) (s : TaskStatus)
  | taskRemoved (t : TaskId)
  | linkAdded (l : LinkId)
  | linkStatus (l : LinkId) (s : LinkStatus)
  | linkRemoved (l : LinkId)
  | flowStatus (s : FlowStatus)
  | evalAct (o : Nat) (t : TaskRef)
  | postAct (o : Nat) (t : TaskRef)
  | ehStart
  | cleared
  deriving DecidableEq, Repr

/-- An event posted to the listeners and the error that it carries: `postFlowEvent`, flowevents.go lines 69-114, takes the
error of the instance, `postTaskEvent`, taskevents.go lines 95-193, that of the task object; both only when the new status is
Failed. -/
inductive Post
  | flow (s : FlowStatus) (err : Option Err)
  | task (o : Nat) (t : TaskRef) (s : TaskStatus) (err : Option Err)

def Post.isFlow : Post → Bool
  | .flow .. => true
  | .task .. => false

/-- The entry of the trace for the same change. -/
def Post.ev : Post → Ev
  | .flow s _ => .flowStatus s
  | .task o t s _ => .taskStatus o t s

/-- `Instance`, instance/instance.go lines 16-46. `host` is the task instance that started a subflow: index of the
instance and of the task object. `trace` and `posted` are ghost fields, newest first. Not modelled: logger, tracing, locks, the result
handler (see `Eng.replies`). -/
structure Inst where
  defn : Def
  uri : String := ""
  subflowId : Nat := 0
  host : Option (Nat × Nat) := none
  handling : Bool := false
  status : FlowStatus := .notStarted
  objs : List Obj := []
  tasks : AMap TaskId Nat := []
  links : AMap LinkId LinkStatus := []
  force : Bool := false
  returnData : Option (AMap String Val) := none
  returnError : Option Err := none
  attrs : AMap String Val := []
  trace : List Ev := []
  posted : List Post := []

namespace Inst

/-- Update of a task object through its pointer. -/
def modO (I : Inst) (o : Nat) (f : Obj → Obj) : Inst := { I with objs := I.objs.modify o f }

/-- `TaskInst.SetStatus`, taskinst.go lines 175-179. -/
def setTaskStatus (I : Inst) (o : Nat) (s : TaskStatus) : Inst :=
  match I.objs[o]? with
  | none => I
  | some ob => { I with objs := I.objs.modify o (fun x => { x with status := s })
                        trace := .taskStatus o ob.task s :: I.trace
                        posted := .task o ob.task s (if s = .failed then ob.returnError else none) :: I.posted }

/-- `Instance.SetStatus`, instance.go lines 201-209. -/
def setFlowStatus (I : Inst) (s : FlowStatus) : Inst :=
  { I with status := s, trace := .flowStatus s :: I.trace
           posted := .flow s (if s = .failed then I.returnError else none) :: I.posted }

/-- `Instance.SetValue`, instance.go lines 254-271. -/
def setValue (I : Inst) (k : String) (v : Val) : Inst := { I with attrs := I.attrs.set k v }

/-- `Instance.FindOrCreateTaskInst`, instance.go lines 83-101. -/
def findOrCreateTask (I : Inst) (t : TaskRef) : Inst × Nat :=
  match I.tasks.get? t.id with
  | some o => (I, o)
  | none =>
    ({ I with objs := I.objs ++ [{ task := t }]
              tasks := I.tasks.set t.id I.objs.length
              trace := .taskAdded I.objs.length t.id :: I.trace }, I.objs.length)

/-- `Instance.FindOrCreateLinkData`, instance.go lines 105-121; a new link instance has status 0. -/
def findLink (I : Inst) (l : LinkId) : Inst :=
  match I.links.get? l with
  | some _ => I
  | none => { I with links := I.links.set l .unset, trace := .linkAdded l :: I.trace }

/-- `GetFromLinkInstances` / `GetToLinkInstances`, taskinst.go lines 229-264. -/
def findLinks (I : Inst) (ls : List LinkDef) : Inst := ls.foldl (fun J l => J.findLink l.id) I

/-- `LinkInst.Status`, linkinst.go lines 31-33, of a link that may not exist yet. -/
def linkSt (I : Inst) (l : LinkId) : LinkStatus := (I.links.get? l).getD .unset

/-- `LinkInst.SetStatus`, linkinst.go lines 36-43, without coverage. -/
def setLink (I : Inst) (l : LinkId) (s : LinkStatus) : Inst :=
  { I with links := I.links.set l s, trace := .linkStatus l s :: I.trace }

/-- Setting the statuses of the outgoing links as decided. Simplification: a followed link is set directly; the
code first sets it to not followed (taskbehavior.go line 234). -/
def applyRows (I : Inst) (rows : List (LinkDef × LinkStatus × Nat)) : Inst :=
  rows.foldl (fun J r => J.setLink r.1.id r.2.1) I

/-- `TaskBehavior.Enter`, taskbehavior.go lines 24-84, after `FindOrCreateTaskInst` (ind_instance.go line 731):
the instance, the task object and the result. The incoming links are those of the task of the object. -/
def enterTask (I : Inst) (t : TaskRef) : Inst × Nat × EnterResult :=
  let I1 := (I.findOrCreateTask t).1
  let o := (I.findOrCreateTask t).2
  match I1.objs[o]? with
  | none => (I1, o, .notReady)
  | some ob =>
    let from_ := I1.defn.fromLinks ob.task
    let I2 := (I1.setTaskStatus o .entered).findLinks from_
    match enterDecision (from_.map (fun l => I2.linkSt l.id)) with
    | .notReady => (I2, o, .notReady)
    | .eval => (I2.setTaskStatus o .ready, o, .eval)
    | .skip => (I2.setTaskStatus o .skipped, o, .skip)

/-- `FlowBehavior.TaskDone`, flowbehavior.go lines 28-48: every task instance has a status of at least Done. -/
def allDone (I : Inst) : Bool :=
  I.tasks.all (fun p => match I.objs[p.2]? with
    | some ob => decide (TaskStatus.done.code ≤ ob.status.code)
    | none => true)

/-- `Instance.releaseTask`, instance.go lines 123-137. -/
def release (I : Inst) (t : TaskRef) : Inst :=
  (I.defn.fromLinks t).foldl (fun J l => { J with links := J.links.del l.id, trace := .linkRemoved l.id :: J.trace })
    { I with tasks := I.tasks.del t.id, trace := .taskRemoved t.id :: I.trace }

/-- `taskInsts = make(map…)`, ind_instance.go line 684. -/
def clearTasks (I : Inst) : Inst := { I with tasks := [], trace := .cleared :: I.trace }

/-- `TaskBehavior.Skip`, taskbehavior.go lines 309-344: the instance with the links marked and the successor entries. -/
def skipTask (I : Inst) (o : Nat) (t : TaskRef) : Inst × List TaskEntry :=
  let to := I.defn.toLinks t
  let rows := skipRows to
  (((I.findLinks to).setTaskStatus o .skipped).applyRows rows, rowEntries t.eh rows)

/-- `TaskBehavior.Done`, taskbehavior.go lines 199-306. `ev` gives the outcomes of the link expressions. -/
def doneTask (prio : Bool) (ev : LinkDef → ExprOut) (I : Inst) (o : Nat) (t : TaskRef) :
    Inst × Except String (List TaskEntry) :=
  let to := I.defn.toLinks t
  let I1 := (I.findLinks to).setTaskStatus o .done
  match doneRows prio ev to with
  | .error (m, rows) => (I1.applyRows rows, .error m)
  | .ok rows => (I1.applyRows rows, .ok (sortEntries (rowEntries t.eh rows)))

/-- `TaskBehavior.Error`, taskbehavior.go lines 347-389, after the status was set (ind_instance.go line 611). -/
def errorTask (I : Inst) (o : Nat) (t : TaskRef) : Inst × Option (List TaskEntry) :=
  let to := I.defn.toLinks t
  let I1 := (I.setTaskStatus o .failed).findLinks to
  match errorRows to with
  | none => (I1, none)
  | some rows => (I1.applyRows rows, some (sortEntries (rowEntries t.eh rows)))

/-- Entries of `FlowBehavior.Start` / `StartErrorHandler`, flowbehavior.go lines 13-20 and 55-69: the tasks without
incoming links. Simplification: `Tasks()` ranges over a Go map; the model uses the order of the task list. The order
only influences the order in the work queue, from which any item may be taken (`Env.pick`). -/
def startEntries (d : Def) (eh : Bool) : List TaskEntry :=
  ((d.graph eh).tasks.filter (fun t => (d.fromLinks ⟨eh, t.id⟩).length = 0)).map (fun t => ⟨⟨eh, t.id⟩, 0⟩)

end Inst

/-- `NewErrorObj`, taskinst.go lines 623-625, and `getErrorObject`, lines 562-579. -/
def errorObj (t : TaskId) (e : Err) : Val :=
  match e with
  | .linkExpr m => .obj [("activity", .str t), ("message", .str m), ("type", .str "link_expr"), ("code", .str ""), ("data", .null)]
  | .act m c d a _ =>
    .obj [("activity", .str (if a = "" then t else a)), ("message", .str m), ("type", .str "activity"), ("code", .str c), ("data", d)]
  | .eval n ty m => .obj [("activity", .str n), ("message", .str m), ("type", .str ty), ("code", .str ""), ("data", .null)]
  | .plain m => .obj [("activity", .str t), ("message", .str m), ("type", .str "unknown"), ("code", .str ""), ("data", .null)]

end Flow
