import Verif.Model.Events

/-!
What a listener sees: the announcements of the tasks and of a flow instance, newest first, as names of events.
-/

namespace Flow.Spec

/-- The announcements of tasks: task instance, task, name of the event. -/
def taskNews (l : List Post) : List (Nat × TaskRef × String) :=
  l.filterMap (fun p => match p with
    | .flow .. => none
    | .task o t s _ => some (o, t, s.eventName))

/-- The announcements of the flow: name of the event and error. -/
def flowNews (l : List Post) : List (String × Option Err) :=
  l.filterMap (fun p => match p with
    | .flow s err => some (s.eventName, err)
    | .task .. => none)

/-- The events of a task that presuppose an earlier event of the same task. -/
def presupposes (name : String) : Option String :=
  if name = "Started" then some "Scheduled"
  else if name = "Skipped" then some "Scheduled"
  else if name = "Completed" then some "Started"
  else if name = "Failed" then some "Started"
  else if name = "Waiting" then some "Started"
  else none

end Flow.Spec
