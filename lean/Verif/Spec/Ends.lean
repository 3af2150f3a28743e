import Verif.Spec.Bound
import Verif.Spec.Cycle

/-
Which flows a run cannot be stuck in (C103).
-/

namespace Flow.Spec

open Flow

/-- No task identifier is an end of a link of the flow and also of a link of its error handler. -/
def Apart (d : Def) : Prop :=
  ∀ l ∈ d.main.links, ∀ k ∈ (d.eh.getD ⟨[], []⟩).links, l.src ≠ k.src ∧ l.src ≠ k.dst ∧ l.dst ≠ k.src ∧ l.dst ≠ k.dst

/-- The links of the flow and of its error handler form no circle; or links have different identifiers, and the two parts have no
task identifiers in common. -/
def Tame (d : Def) : Prop := NoCircle d ∨ (LinksDistinct d ∧ Apart d)

end Flow.Spec
