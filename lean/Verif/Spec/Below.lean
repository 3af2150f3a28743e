import Verif.Spec.Run

/-
Subflows of subflows.
-/

namespace Flow.Spec

open Flow

/-- Flow instance `j` is `i`, or was started by a task of `i` or of an instance below it. -/
inductive Below (e : Eng) (i : Nat) : Nat → Prop
  | self : Below e i i
  | sub {j h o : Nat} {J : Inst} (hJ : e.insts[j]? = some J) (hh : J.host = some (h, o)) (hb : Below e i h) : Below e i j

/-- Nothing is left to do for instance `i` and the instances below it: no work item of them is pending, and none of them is
in the middle of a step. -/
def Idle (e : Eng) (i : Nat) : Prop :=
  (∀ w ∈ e.queue, ¬ Below e i w.inst) ∧ (e.stack = [] ∨ ¬ Below e i e.cur)

end Flow.Spec
