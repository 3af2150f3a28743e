import Verif.Spec.Run

/-
When tasks of the error handler may be active.
-/

namespace Flow.Spec

open Flow

/-- The task that an event is about. -/
def evTask : Ev → Option TaskRef
  | .taskStatus _ t _ => some t
  | .evalAct _ t => some t
  | .postAct _ t => some t
  | _ => none

/-- Tasks of the error handler are active only after the error handler was started (events newest first). -/
def HandlerLast : List Ev → Prop
  | [] => True
  | ev :: pre => (∀ t, evTask ev = some t → t.eh = true → .ehStart ∈ pre) ∧ HandlerLast pre

end Flow.Spec
