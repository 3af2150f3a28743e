import Verif.Model.Serial

/-
The execution of a restarted instance: what `Restart` (`instance/ind_instance.go` lines 873-930) leaves behind is executed by the
same functions as a new instance.

Simplifications: only instances without running subflows (a task instance of a subflow has no instance after a restart, see
`Restored.rotate`); a pending work item whose task instance is nil is not executed. The identity of a task object is its position in
the task table, the new object gets the task and the status and nothing else (`initTaskInst`, taskinst.go lines 38-58, and
`TaskInst.UnmarshalJSON`, instance_ser.go).
-/

namespace Flow

/-- `initTaskInst`, taskinst.go lines 38-58: the task of the flow, else that of the error handler. -/
def taskRefOf (d : Def) (t : TaskId) : TaskRef := if (d.task? ⟨false, t⟩).isSome then ⟨false, t⟩ else ⟨true, t⟩

/-- `UnmarshalJSON` (instance_ser.go lines 65-97), `init` (ind_instance.go lines 932-944) and `SetStatus` (line 895). -/
def RInst.resume (d : Def) (R : RInst) : Inst :=
  ({ defn := d
     uri := R.uri
     attrs := R.attrs
     objs := R.tasks.map (fun p => { task := taskRefOf d p.1, status := p.2 })
     tasks := R.tasks.zipIdx.map (fun x => (x.1.1, x.2))
     links := R.links } : Inst).setFlowStatus .active

/-- The task instance of a work item, instance_ser.go lines 113-127; `none` if it is nil or belongs to a subflow. -/
def RItem.resume (tasks : AMap TaskId Nat) (w : RItem) : Option WorkItem :=
  match w.task with
  | some (0, t) => (tasks.get? t).map (fun o => ⟨w.id, 0, o⟩)
  | _ => none

/-- All pending work items. -/
def resumeQueue (tasks : AMap TaskId Nat) : List RItem → Option (List WorkItem)
  | [] => some []
  | w :: ws =>
    match w.resume tasks, resumeQueue tasks ws with
    | some x, some xs => some (x :: xs)
    | _, _ => none

/-- The state in which the loop of `Run` (action.go lines 385-400) finds a restarted instance of the flow `d`. -/
def Restored.resume (d : Def) (r : Restored) : Option Eng :=
  if r.subs.isEmpty then
    (resumeQueue (r.top.resume d).tasks r.queue).map (fun q =>
      { id := r.id, insts := [r.top.resume d], queue := q, wiCounter := r.wiCounter, subflowCtr := r.subflowCtr })
  else none

end Flow
