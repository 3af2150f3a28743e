import Verif.Model.Snapshot
import Verif.Spec.Record

/-
What the recorded steps say about the main flow, read directly off the steps.
-/

namespace Flow.Spec

open Flow

/-- The recorded changes of the main flow, oldest first. -/
def mainChanges (steps : List StepRec) : List FlowChg := steps.filterMap (fun s => s.flows.get? 0)

/-- The values recorded for an attribute of the main flow, oldest first. -/
def attrValues (steps : List StepRec) (n : String) : List Val := (mainChanges steps).filterMap (fun c => c.attrs.get? n)

/-- The changes of subflows carry the number of the subflow. This is so for the step that creates a subflow, and for all steps
if there are no subflows. -/
def Numbered (steps : List StepRec) : Prop := ∀ s ∈ steps, ∀ p ∈ s.flows, p.1 = p.2.subflowId

/-- The steps contain maps: no key occurs twice. -/
def Maps (steps : List StepRec) : Prop :=
  ∀ s ∈ steps, s.flows.keys.Nodup ∧ ∀ p ∈ s.flows, p.2.attrs.keys.Nodup ∧ p.2.tasks.keys.Nodup ∧ p.2.links.keys.Nodup

end Flow.Spec
