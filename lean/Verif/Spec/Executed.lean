import Verif.Spec.Run
import Verif.Model.Run

/-
Runs of an action: work items executed and results delivered.
-/

namespace Flow.Spec

open Flow

/-- Is the entry of the queue log the removal of an item? -/
def isRemoved : QEv → Bool
  | .removed _ => true
  | .added _ => false

/-- The number of work items executed so far. -/
def executed (e : Eng) : Nat := e.qlog.countP isRemoved

/-- All calls of the result handler so far: those of the action and those caused by activities that reply. -/
def delivered (r : Run) : Nat := r.results.length + r.eng.replies.length

end Flow.Spec
