import Verif.Model.Serial
import Verif.Spec.Plain

/-
What restoring and restarting an instance should preserve, read off the run of the original instance.
-/

namespace Flow.Spec

open Flow

/-- The restored instance has the status, attributes, tasks and links that the events of the original one have left. -/
def Faithful (R : RInst) (I : Inst) : Prop :=
  R.status = lastFlow I.trace ∧ R.uri = I.uri ∧ (∀ n, R.attrs.get? n = I.attrs.get? n) ∧
  (∀ k, R.tasks.get? k = (liveTask I.trace k).map (lastStatus I.trace)) ∧ ∀ k, R.links.get? k = liveLink I.trace k

/-- Flow instance number `k` is running: the main flow or a subflow that has not completed. -/
def Running (e : Eng) (k : Nat) : Prop := k = 0 ∨ ∃ j, e.subflows.get? k = some j

/-- The pending work: identifier, flow instance and task of every work item in the order of execution. -/
def pending (e : Eng) : List (Nat × Nat × TaskId) := e.queue.map (fun w => (w.id, w.inst, taskOf e w.inst w.obj))

/-- The same of a restored instance. -/
def pendingR (r : Restored) : List (Nat × Nat × TaskId) := r.queue.map (fun w => (w.id, w.subflowId, w.taskId))

/-- Every work item of the top-level instance knows its task instance. -/
def TopOnly (q : List RItem) : Prop := ∀ w ∈ q, w.task = some (0, w.taskId)

end Flow.Spec
