import Verif.Model.Tracker
import Verif.Spec.Trace

/-
Reading the recorded steps of a flow, independently of how the change tracker fills them.
-/

namespace Flow.Spec

open Flow

/-- What a reader of the recorded steps knows of one flow instance. -/
structure View where
  status : FlowStatus := .notStarted
  tasks : TaskId → Option TaskStatus := fun _ => none
  links : LinkId → Option LinkStatus := fun _ => none

/-- A recorded change of a task or link: deleted, or present with the recorded status. -/
def applyChg {S : Type} (old : Option S) : Option (KeyChg S) → Option S
  | none => old
  | some c => if c.chg = .delete then none else some c.status

/-- A recorded change of a flow instance. A new flow starts with nothing; a status of 0 means no change of the status. -/
def View.apply (v : View) : Option FlowChg → View
  | none => v
  | some c =>
    let b : View := if c.newFlow then {} else v
    { status := if c.status = .notStarted then b.status else c.status
      tasks := fun k => applyChg (b.tasks k) (c.tasks.get? k)
      links := fun k => applyChg (b.links k) (c.links.get? k) }

/-- Replaying the recorded steps, oldest first, for the flow instance `sid`. -/
def replay (sid : Nat) (steps : List StepRec) : View := steps.foldl (fun v s => v.apply (s.flows.get? sid)) {}

/-- A recorded change of the work queue. -/
def applyQueue (old : Option TaskId) : Option QueueChg → Option TaskId
  | none => old
  | some c => if c.chg = .delete then none else some c.taskId

/-- Replaying the queue changes: the task of the pending work item with an identifier. -/
def replayQueue (steps : List StepRec) (id : Nat) : Option TaskId :=
  steps.foldl (fun q s => applyQueue q (s.queue.get? id)) none

/-- A recorded change of an attribute; a new flow starts without attributes. -/
def applyAttr (n : String) (old : Option Val) : Option FlowChg → Option Val
  | none => old
  | some c => (c.attrs.get? n).or (if c.newFlow then none else old)

/-- Replaying the recorded steps for an attribute of the flow instance `sid`. -/
def replayAttr (sid : Nat) (steps : List StepRec) (n : String) : Option Val :=
  steps.foldl (fun v s => applyAttr n v (s.flows.get? sid)) none

/-- The value of an attribute of the flow instance `sid` after a further report. -/
def reported (sid : Nat) (n : String) (old : Option Val) : Call → Option Val
  | .flowCreated .. => if sid = 0 then none else old
  | .subflowCreated i .. => if i = sid then none else old
  | .attrChange i m v => if i = sid ∧ m = n then some v else old
  | _ => old

/-- The calls about tasks, links and status of the flow instance `sid`. -/
def concerns (sid : Nat) : Call → Bool
  | .flowCreated .. => sid = 0
  | .subflowCreated i .. => i = sid
  | .setStatus i _ => i = sid
  | .attrChange .. => false
  | .taskAdded i .. => i = sid
  | .taskUpdated i .. => i = sid
  | .taskRemoved i _ => i = sid
  | .linkAdded i .. => i = sid
  | .linkUpdated i .. => i = sid
  | .linkRemoved i _ => i = sid
  | .itemAdded .. => false
  | .itemRemoved .. => false

/-- The calls that announce the flow instance `sid`, or report a new task of it or a task with a new status. -/
def introduces (sid : Nat) : Call → Bool
  | .flowCreated .. => sid = 0
  | .subflowCreated i .. => i = sid
  | .taskAdded i .. => i = sid
  | .taskUpdated i .. => i = sid
  | _ => false

/-- The calls about the work queue. -/
def ofQueue : Call → Bool
  | .itemAdded .. => true
  | .itemRemoved .. => true
  | _ => false

/-- The call that announces the flow instance `sid` with the address `uri`. -/
def Announces (sid : Nat) (uri : String) (c : Call) : Prop :=
  (sid = 0 ∧ c = .flowCreated uri .notStarted) ∨ (∃ host, c = .subflowCreated sid uri host .notStarted)

/-- The groups of calls `css`, one group per recorded step, are those made on the way to the state `e`: for every flow
instance its announcement and then the calls of its trace, and the calls for the work queue, interleaved in any way and
recorded at any time. -/
def CallsOf (e : Eng) (css : List (List Call)) : Prop :=
  (∀ (i : Nat) (I : Inst), e.insts[i]? = some I → ∃ c, Announces i I.uri c ∧
    css.flatten.filter (concerns i) = c :: I.trace.reverse.filterMap (callOf i I.uri)) ∧
  css.flatten.filter ofQueue = e.qlog.reverse.map e.queueCall

/-- Within one recorded step, a link that is removed and then added again also gets a status (or is removed) afterwards. -/
def LinkSettled (sid : Nat) (l : LinkId) (cs : List Call) : Prop :=
  ∀ pre s post, cs = pre ++ .linkAdded sid l s :: post → .linkRemoved sid l ∈ pre →
    (∃ s', .linkUpdated sid l s' ∈ post) ∨ .linkRemoved sid l ∈ post

/-- The same for a task. -/
def TaskSettled (sid : Nat) (t : TaskId) (cs : List Call) : Prop :=
  ∀ pre uri s post, cs = pre ++ .taskAdded sid uri t s :: post → .taskRemoved sid t ∈ pre →
    (∃ uri' s', .taskUpdated sid uri' t s' ∈ post) ∨ .taskRemoved sid t ∈ post

/-- The task table was not emptied, and every status change concerned the object in the task table. -/
def NoStale : List Ev → Prop
  | [] => True
  | .cleared :: _ => False
  | .taskStatus o t _ :: tr => liveTask tr t.id = some o ∧ NoStale tr
  | _ :: tr => NoStale tr

/-- The tasks of a flow instance with their statuses. -/
def tasksOf (I : Inst) (k : TaskId) : Option TaskStatus :=
  match I.tasks.get? k with
  | none => none
  | some o => (I.objs[o]?).map (·.status)

end Flow.Spec
