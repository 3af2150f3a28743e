import Verif.Model.Context

/-
Specification of C109: which value an activity has given to an output.
-/

namespace Flow.Ctx

/-- This use of the context gives output `n` the value `v`. -/
def Sets (op : Op) (n : String) (v : Val) : Prop := op = .setOutput n v ∨ ∃ m, op = .setObject (some m) ∧ AMap.get? m n = some v

/-- This use of the context says what output `n` is. -/
def Touches (op : Op) (n : String) : Prop := (∃ v, op = .setOutput n v) ∨ ∃ m, op = .setObject m

/-- The last word on output `n` is that it has the value `v`. -/
def LastValue (ops : List Op) (n : String) (v : Val) : Prop :=
  ∃ pre op post, ops = pre ++ op :: post ∧ Sets op n v ∧ ∀ q ∈ post, ¬ Touches q n

/-- The last word on output `n` is that all outputs were replaced by others. -/
def LastGone (ops : List Op) (n : String) : Prop :=
  ∃ pre m post, ops = pre ++ .setObject m :: post ∧ m.bind (AMap.get? · n) = none ∧ ∀ q ∈ post, ¬ Touches q n

/-- Nothing was said about output `n`. -/
def Untouched (ops : List Op) (n : String) : Prop := ∀ q ∈ ops, ¬ Touches q n

end Flow.Ctx
