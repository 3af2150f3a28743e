import Verif.Model.Engine

/-
Counting the ends of tasks in a trace, and the ways to enter a task in a definition.
-/

namespace Flow.Spec

open Flow

/-- The event ends the task with this identifier: it is done, has failed, or was skipped. -/
def endsTask (k : TaskId) : Ev → Bool
  | .taskStatus _ t .done => t.id = k
  | .taskStatus _ t .failed => t.id = k
  | .taskStatus _ t .skipped => t.id = k
  | _ => false

/-- How often the task ended. -/
def timesEnded (tr : List Ev) (k : TaskId) : Nat := tr.countP (endsTask k)

/-- The event begins the task with this identifier: it became ready or was skipped. -/
def beginsTask (k : TaskId) : Ev → Bool
  | .taskStatus _ t .ready => t.id = k
  | .taskStatus _ t .skipped => t.id = k
  | _ => false

/-- How often the task began. -/
def timesBegun (tr : List Ev) (k : TaskId) : Nat := tr.countP (beginsTask k)

/-- The ways to enter a task of a graph: as a start task, and by each link that leads to it. -/
def graphEntrances (g : Graph) (k : TaskId) : Nat :=
  g.tasks.countP (fun t => t.id = k ∧ ∀ l ∈ g.links, l.dst ≠ k) + g.links.countP (fun l => l.dst = k)

/-- The ways to enter a task of a flow, in the main flow and in the error handler. -/
def entrances (d : Def) (k : TaskId) : Nat :=
  graphEntrances d.main k + (d.eh.map (fun g => graphEntrances g k)).getD 0

end Flow.Spec
