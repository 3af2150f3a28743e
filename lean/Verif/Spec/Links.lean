import Verif.Model.Definition
import Verif.Model.Behavior

/-
Specification of link decisions, written without reference to the loops of the model.
Only the data types (`LinkDef`, `LinkType`, `LinkStatus`, `ExprOut`) are shared with the model.
-/

namespace Flow.Spec

/-- A link status that settles the link: followed, not followed or skipped. -/
def decided : LinkStatus → Prop
  | .unset => False
  | .false => True
  | .true => True
  | .skipped => True

/-- The link at position `k` is an expression link whose expression is true. -/
def exprTrue (ls : List LinkDef) (ev : LinkDef → ExprOut) (k : Nat) : Prop :=
  ∃ l, ls[k]? = some l ∧ l.type = .expression ∧ ev l = .ok true

/-- The link at position `k` of the outgoing links `ls` of a task that succeeded is to be followed. Of several
otherwise links only the last one counts. -/
def followedAfterSuccess (ls : List LinkDef) (ev : LinkDef → ExprOut) (k : Nat) : Prop :=
  ∃ l, ls[k]? = some l ∧
    (l.type = .dependency ∨ l.type = .label ∨ (l.type = .expression ∧ ev l = .ok true) ∨
      (l.type = .otherwise ∧
        (∀ j l', k < j → ls[j]? = some l' → l'.type ≠ .otherwise) ∧
        (∃ e ∈ ls, e.type = .expression) ∧
        (∀ j, ¬ exprTrue ls ev j)))

/-- Some link expression reports an error. -/
def exprFails (ls : List LinkDef) (ev : LinkDef → ExprOut) : Prop :=
  ∃ l ∈ ls, l.type = .expression ∧ ∃ m, ev l = .err m

/-- Priority class of a successor: the documented order in taskbehavior.go lines 410-423. Not followed links
come last. -/
def linkClass (prio : Bool) (t : LinkType) (followed : Bool) : Nat :=
  if followed = false then 4
  else match t, prio with
    | .dependency, _ => 0
    | .expression, false => 1
    | .label, true => 1
    | .otherwise, _ => 2
    | .label, false => 3
    | .expression, true => 3
    | .error, _ => 0

end Flow.Spec
