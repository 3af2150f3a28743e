import Verif.Model.Server

/-
Reading what happened at the server (events latest first), independently of its state.
-/

namespace Flow.Srv

/-- Requests being processed. -/
def inProgress (tr : List Ev) : Int := (tr.count .begin : Int) - tr.count .finish

/-- The server has been started and not been stopped since. -/
def Running : List Ev → Prop
  | [] => False
  | .start none :: _ => True
  | .stop none :: _ => False
  | _ :: tr => Running tr

end Flow.Srv
