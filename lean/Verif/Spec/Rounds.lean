import Verif.Spec.Loops
import Verif.Spec.Attempts

/-
Specification of loops whose rounds consist of several attempts.
-/

namespace Flow.Spec

open Flow

/-- `k` of the first `n` steps of the run `R` start an evaluation of the task instance: `k` rounds of its loop have begun. -/
inductive Rounds (env : Env) (R : Nat → Eng) (i o : Nat) : Nat → Nat → Prop
  | zero : Rounds env R i o 0 0
  | start {n k : Nat} {t : TaskRef} {e' : Eng} {r : Eng.EvalOut} (h : Rounds env R i o n k) (hs : Starts env (R n) i o t e' r) :
      Rounds env R i o (n + 1) (k + 1)
  | rest {n k : Nat} (h : Rounds env R i o n k) (hs : ∀ t e' r, ¬ Starts env (R n) i o t e' r) : Rounds env R i o (n + 1) k

/-- `k` of the first `n` steps of the run `R` are evaluations of the task instance that end with the request to repeat it. -/
inductive Repeats (env : Env) (R : Nat → Eng) (i o : Nat) : Nat → Nat → Prop
  | zero : Repeats env R i o 0 0
  | again {n k : Nat} {t : TaskRef} {e' : Eng} (h : Repeats env R i o n k) (hs : Evaluates env (R n) i o t e' (.res .again)) :
      Repeats env R i o (n + 1) (k + 1)
  | rest {n k : Nat} (h : Repeats env R i o n k) (hs : ∀ t e', ¬ Evaluates env (R n) i o t e' (.res .again)) : Repeats env R i o (n + 1) k

/-- The key, the value and the index that the task instance can refer to. -/
def iterationAt (e : Eng) (i o : Nat) : Option (Val × Val × Int) := (e.obj? i o).bind (·.iteration)

/-- The index of a do-while loop that the task instance can refer to. -/
def indexAt (e : Eng) (i o : Nat) : Option Nat := (e.obj? i o).bind (·.dwIndex)

/-- What the outcome of its activity means for a loop task; `again` if the activity is done. -/
def roundResult (again : Eng.EvalOut) : Except Err Bool → Eng.EvalOut
  | .ok true => again
  | .ok false => .res .wait
  | .error err => .err err

end Flow.Spec
