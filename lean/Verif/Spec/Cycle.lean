import Verif.Spec.Graph

/-
Cycles of links.
-/

namespace Flow.Spec

open Flow

/-- The task lies on a cycle of links. -/
def OnCycle (g : Graph) (t : TaskId) : Prop := ∃ l ∈ g.links, l.src = t ∧ Path g l.dst t

/-- The task lies on a cycle of links or behind one. -/
def BehindCycle (g : Graph) (t : TaskId) : Prop := ∃ c, OnCycle g c ∧ Path g c t

/-- No two links of the flow and of its error handler have the same identifier. -/
def LinksDistinct (d : Def) : Prop := (d.main.links.map (·.id) ++ (d.eh.getD ⟨[], []⟩).links.map (·.id)).Nodup

/-- The task that is executed or skipped when this happens: it gets a status other than `entered`, or its activity is called. -/
def activeTask : Ev → Option TaskRef
  | .taskStatus _ _ .entered => none
  | .taskStatus _ t _ => some t
  | .evalAct _ t => some t
  | .postAct _ t => some t
  | _ => none

/-- The task that has been entered when this happens. -/
def enteredTask : Ev → Option TaskRef
  | .taskStatus _ t .entered => some t
  | _ => none

end Flow.Spec
