import Verif.Model.Instance

/-
Concurrent task execution (`FLOGO_FLOW_CONCURRENT_TASK_EXECUTION`): `DoStepInLoop` (instance/ind_instance.go lines 338-385)
takes work items and executes each on its own goroutine. A state machine over explicit steps; any goroutine may take the
next step. Goroutine 0 is the one that starts the instance and then runs the loop.

Modelled: `actSchedLock` (lines 722-726) with the frames of the functions that run while it is held. One step is one call
of a function that takes and releases `inst.lock`, or one call of `LinkInst.SetStatus`; in particular the links of a finished
task are set one by one, a followed link first to not followed (taskbehavior.go line 234), and `FindOrCreateTaskInst` with
the test of `scheduled`, `Enter`, and the scheduling are three steps. `Done`, `Skip` and `Error` set link instances through
pointers they got before: the generation of a link counts how often its instance was removed, and setting the status of an
instance that was removed changes nothing.
Simplification: all expressions of a task are evaluated when its activity returns.
Not modelled: subflows, settings mappers that fail, change tracking, coverage, tracing, the bound on the number of steps,
and data races in the sense of the Go memory model (`Enter` reads the links in one step).
-/

namespace Flow.Conc

/-- What a goroutine still has to do. -/
inductive Fr
  /-- `execTask`, before the behavior is called -/
  | run (o : Nat)
  /-- the loop over outgoing links in `Done`, `Skip` or `Error`: the calls of `SetStatus` left, and the generations of the
  link instances -/
  | rows (gen : LinkId → Nat) (rs : List (LinkDef × LinkStatus))
  /-- `handleTaskDone` after `Done` or `Skip`, line 501 -/
  | finish (t : TaskRef) (notify : Bool) (es : List TaskEntry)
  /-- `HandleGlobalError`, line 666 -/
  | fail
  /-- `enterTasks`, before `actSchedLock.Lock()`, line 724 -/
  | lock (es : List TaskEntry)
  /-- `enterTasks`, before the next iteration of the loop, line 728; the lock is held -/
  | enter (es : List TaskEntry)
  /-- after `FindOrCreateTaskInst` and the test of `scheduled`, before `Enter`, line 737 -/
  | test (o : Nat) (es : List TaskEntry)
  /-- after `Enter` returned `EREval`, before line 743 -/
  | push (o : Nat) (es : List TaskEntry)
  /-- before `releaseTask`, line 573 -/
  | release (t : TaskRef)

/-- What is put on the work queue: by `enterTasks`, or for a repeated evaluation (line 467). -/
inductive Ev
  | entered (o : Nat)
  | again (o : Nat)
  deriving DecidableEq

/-- The top-level instance, the queue, the flags `scheduled` of the task instances, the holder of `actSchedLock`, the
goroutines, the generations of the links, and what was put on the queue, latest first. -/
structure St where
  inst : Inst
  queue : List Nat := []
  scheduled : Nat → Bool := fun _ => false
  lock : Option Nat := none
  gs : Nat → List Fr := fun _ => []
  gen : LinkId → Nat := fun _ => 0
  log : List Ev := []

/-- Goroutine `g` continues with `fs`. -/
def St.goto (s : St) (g : Nat) (fs : List Fr) : St := { s with gs := fun h => if h = g then fs else s.gs h }

/-- Result of the evaluation of a task: success with the outcomes of the link expressions, `ret`: the activity called
`Return`; an error; wait; repeat. -/
inductive Res
  | done (ev : LinkDef → ExprOut) (ret : Bool)
  | error
  | wait
  | again

/-- One step of the program. -/
inductive Label
  /-- the loop takes a work item; a new goroutine `g` executes it, lines 344-368 -/
  | pop (g : Nat)
  /-- the behavior of goroutine `g` returns -/
  | exec (g : Nat) (r : Res)
  /-- the next step of goroutine `g` -/
  | next (g : Nat)

/-- The calls of `SetStatus` in the loop of `Done`, taskbehavior.go lines 231-283. -/
def rowSets (r : LinkDef × LinkStatus × Nat) : List (LinkDef × LinkStatus) :=
  if r.2.1 = .true ∧ r.1.type ≠ .otherwise then [(r.1, .false), (r.1, .true)] else [(r.1, .false)]

/-- The call of `SetStatus` after the loop, lines 286-293. -/
def otherSets (r : LinkDef × LinkStatus × Nat) : List (LinkDef × LinkStatus) :=
  if r.2.1 = .true ∧ r.1.type = .otherwise then [(r.1, .true)] else []

/-- The calls of `SetStatus` of `Done`, given the final decisions. -/
def doneSets (rows : List (LinkDef × LinkStatus × Nat)) : List (LinkDef × LinkStatus) :=
  rows.flatMap rowSets ++ rows.flatMap otherSets

/-- The calls of `SetStatus` of `Skip` (lines 330-334) and `Error` (lines 369-381). -/
def plainSets (rows : List (LinkDef × LinkStatus × Nat)) : List (LinkDef × LinkStatus) := rows.map (fun r => (r.1, r.2.1))

/-- `Done`, taskbehavior.go lines 199-306, up to the loop over the links, and what follows. -/
def doneFrames (prio : Bool) (ev : LinkDef → ExprOut) (I : Inst) (gen : LinkId → Nat) (t : TaskRef) (rest : List Fr) : List Fr :=
  match doneRows prio ev (I.defn.toLinks t) with
  | .error (_, rows) => .rows gen (doneSets rows) :: .fail :: rest
  | .ok rows =>
    .rows gen (doneSets rows) :: .finish t ((I.defn.toLinks t).length = 0) (sortEntries (rowEntries t.eh rows)) :: rest

/-- `handleTaskError`, ind_instance.go lines 605-663, after the status was set. -/
def errorFrames (I : Inst) (gen : LinkId → Nat) (t : TaskRef) (rest : List Fr) : List Fr :=
  match errorRows (I.defn.toLinks t) with
  | none => .fail :: rest
  | some rows => .rows gen (plainSets rows) :: .lock (sortEntries (rowEntries t.eh rows)) :: .release t :: rest

/-- The instance after an explicit return. -/
def setForce (I : Inst) (ret : Bool) : Inst := { I with force := I.force || ret }

/-- The result of the evaluation of object `o`, ind_instance.go lines 424-467. -/
def execObj (prio : Bool) (s : St) (g o : Nat) (rest : List Fr) (t : TaskRef) : Res → St
  | .done ev ret =>
    { s with inst := ((setForce s.inst ret).findLinks (s.inst.defn.toLinks t)).setTaskStatus o .done }.goto g
      (doneFrames prio ev s.inst s.gen t rest)
  | .error =>
    { s with inst := (s.inst.setTaskStatus o .failed).findLinks (s.inst.defn.toLinks t) }.goto g (errorFrames s.inst s.gen t rest)
  | .wait => { s with inst := s.inst.setTaskStatus o .waiting }.goto g rest
  | .again => { s with queue := s.queue ++ [o], log := .again o :: s.log }.goto g rest

/-- `execTask`, ind_instance.go lines 401-468: nothing happens for a task instance that is done or skipped. -/
def exec (prio : Bool) (s : St) (g : Nat) (r : Res) : Option St :=
  match s.gs g with
  | .run o :: rest =>
    match s.inst.objs[o]? with
    | none => none
    | some ob =>
      if ob.status = .done ∨ ob.status = .skipped then some (s.goto g rest) else some (execObj prio s g o rest ob.task r)
  | _ => none

/-- The status of a task instance after the links were looked at, taskbehavior.go lines 64-83. -/
def afterEnter (I : Inst) (o : Nat) : EnterResult → Inst
  | .notReady => I
  | .eval => I.setTaskStatus o .ready
  | .skip => I.setTaskStatus o .skipped

/-- The decision of `Enter`, taskbehavior.go lines 36-64. -/
def enterCase (I : Inst) (t : TaskRef) : EnterResult := enterDecision ((I.defn.fromLinks t).map (fun l => I.linkSt l.id))

/-- `Enter`, taskbehavior.go lines 24-84, of the task instance `o`. -/
def enterObj (I : Inst) (o : Nat) (t : TaskRef) : Inst × EnterResult :=
  (afterEnter ((I.setTaskStatus o .entered).findLinks (I.defn.fromLinks t)) o (enterCase I t), enterCase I t)

/-- The frames after `Enter`: `notReady`: the next entry; `eval`: schedule; `skip`: `handleTaskDone` with `Skip`
(taskbehavior.go lines 309-344), lines 737-746. -/
def enteredFrames (I : Inst) (gen : LinkId → Nat) (o : Nat) (t : TaskRef) (es : List TaskEntry) (rest : List Fr) : EnterResult → List Fr
  | .notReady => .enter es :: rest
  | .eval => .push o es :: rest
  | .skip => .rows gen (plainSets (skipRows (I.defn.toLinks t))) ::
      .finish t ((I.defn.toLinks t).length = 0) (rowEntries t.eh (skipRows (I.defn.toLinks t))) :: .enter es :: rest

/-- The instance after `Enter`, and for a skipped task after the first part of `Skip`. -/
def enteredInst (I : Inst) (t : TaskRef) : EnterResult → Inst
  | .skip => I.findLinks (I.defn.toLinks t)
  | _ => I

/-- `HandleGlobalError`, ind_instance.go lines 666-719, for the top-level instance. -/
def failStep (s : St) (g : Nat) (rest : List Fr) : St :=
  if s.inst.handling then { s with inst := s.inst.setFlowStatus .failed }.goto g rest
  else if s.inst.defn.eh.isSome then
    { s with inst := { s.inst with handling := true }.clearTasks }.goto g (.lock (Inst.startEntries s.inst.defn true) :: rest)
  else { s with inst := { s.inst with handling := true }.setFlowStatus .failed }.goto g rest

/-- `FindOrCreateTaskInst` and the test of `scheduled`, lines 731-735. -/
def testStep (s : St) (g : Nat) (x : TaskEntry) (xs : List TaskEntry) (rest : List Fr) : St :=
  { s with inst := (s.inst.findOrCreateTask x.task).1 }.goto g
    (if s.scheduled (s.inst.findOrCreateTask x.task).2 then .enter xs :: rest
     else .test (s.inst.findOrCreateTask x.task).2 xs :: rest)

/-- `scheduled = true` and `scheduleEval`, lines 743-744. -/
def pushStep (s : St) (g o : Nat) (es : List TaskEntry) (rest : List Fr) : St :=
  { s with queue := s.queue ++ [o], scheduled := fun p => if p = o then true else s.scheduled p
           log := .entered o :: s.log }.goto g (.enter es :: rest)

/-- The completion test of `handleTaskDone`, lines 501-571. -/
def finishStep (s : St) (g : Nat) (t : TaskRef) (notify : Bool) (es : List TaskEntry) (rest : List Fr) : St :=
  if (notify && s.inst.allDone) || s.inst.force then
    { s with inst := s.inst.setFlowStatus .completed }.goto g (.release t :: rest)
  else s.goto g (.lock es :: .release t :: rest)

/-- `LinkInst.SetStatus`, linkinst.go lines 36-43, through a pointer: nothing happens to the instance if the link instance was
removed in the meantime. -/
def setPtr (s : St) (gen : LinkId → Nat) (r : LinkDef × LinkStatus) : Inst :=
  if gen r.1.id = s.gen r.1.id then s.inst.setLink r.1.id r.2 else s.inst

/-- `releaseTask`, instance.go lines 123-137. -/
def releaseStep (s : St) (t : TaskRef) : St :=
  { s with inst := s.inst.release t
           gen := fun l => if l ∈ (s.inst.defn.fromLinks t).map (·.id) then s.gen l + 1 else s.gen l }

/-- The next step of a goroutine, `none` if it cannot move: it is finished, it waits for its behavior (`exec`), or for the
lock. -/
def next (s : St) (g : Nat) : Option St :=
  match s.gs g with
  | [] => none
  | .run _ :: _ => none
  | .rows _ [] :: rest => some (s.goto g rest)
  | .rows gen (r :: rs) :: rest => some ({ s with inst := setPtr s gen r }.goto g (.rows gen rs :: rest))
  | .finish t n es :: rest => some (finishStep s g t n es rest)
  | .fail :: rest => some (failStep s g rest)
  | .lock es :: rest => if s.lock.isSome then none else some { s.goto g (.enter es :: rest) with lock := some g }
  | .enter [] :: rest => some { s.goto g rest with lock := none }
  | .enter (x :: xs) :: rest => some (testStep s g x xs rest)
  | .test o es :: rest =>
    match s.inst.objs[o]? with
    | none => none
    | some ob =>
      some ({ s with inst := enteredInst (enterObj s.inst o ob.task).1 ob.task (enterObj s.inst o ob.task).2 }.goto g
        (enteredFrames s.inst s.gen o ob.task es rest (enterObj s.inst o ob.task).2))
  | .push o es :: rest => some (pushStep s g o es rest)
  | .release t :: rest => some ((releaseStep s t).goto g rest)

/-- The loop of `DoStepInLoop`, lines 342-368: while the flow is active, the oldest item is executed on a new goroutine. -/
def pop (s : St) (g : Nat) : Option St :=
  match s.queue with
  | [] => none
  | o :: q =>
    if s.inst.status = .active ∧ (s.gs 0).isEmpty ∧ (s.gs g).isEmpty ∧ g ≠ 0 then some ({ s with queue := q }.goto g [.run o])
    else none

def step (prio : Bool) (s : St) : Label → Option St
  | .pop g => pop s g
  | .exec g r => exec prio s g r
  | .next g => next s g

/-- A new instance whose start tasks goroutine 0 is about to enter, lines 161-259. -/
def init (d : Def) (uri : String) : St :=
  { inst := ({ defn := d, uri := uri } : Inst).setFlowStatus .active
    gs := fun g => if g = 0 then [.lock (Inst.startEntries d false)] else [] }

/-- The states that some interleaving reaches. -/
inductive Reach (prio : Bool) (d : Def) (uri : String) : St → Prop
  | init : Reach prio d uri (init d uri)
  | step {s s' : St} {l : Label} (h : Reach prio d uri s) (hs : step prio s l = some s') : Reach prio d uri s'

/-- Executing labels one after the other. -/
def runs (prio : Bool) : St → List Label → Option St
  | s, [] => some s
  | s, l :: ls => (step prio s l).bind (fun s' => runs prio s' ls)

/-! ### `UpdateAttrs` -/

/-- Operations on `inst.lock` and on the attributes. -/
inductive LockOp
  | lock
  | unlock
  | write (k : String) (v : Val)

/-- `Instance.SetValue`, instance.go lines 254-271; `locks`: the instance has a lock (concurrent mode). -/
def setValueOps (locks : Bool) (k : String) (v : Val) : List LockOp :=
  if locks then [.lock, .write k v, .unlock] else [.write k v]

/-- `Instance.UpdateAttrs`, instance.go lines 276-287: the lock is held while `SetValue` is called. Simplification: the
attributes are a list, ranging over a Go map has no order. -/
def updateAttrsOps (locks : Bool) (attrs : AMap String Val) : List LockOp :=
  (if locks then [.lock] else []) ++ attrs.flatMap (fun p => setValueOps locks p.1 p.2) ++ (if locks then [.unlock] else [])

/-- Executing operations while no other goroutine uses the lock; a `sync.RWMutex` cannot be taken twice. The second
component tells whether the end was reached. -/
def runOps : Bool → AMap String Val → List LockOp → AMap String Val × Bool
  | _, m, [] => (m, true)
  | held, m, .lock :: ops => if held then (m, false) else runOps true m ops
  | _, m, .unlock :: ops => runOps false m ops
  | held, m, .write k v :: ops => runOps held (m.set k v) ops

end Flow.Conc
