import Verif.Model.Delays
import Verif.Spec.Attempts

/-
When a flow is expected to pause.
-/

namespace Flow.Spec

open Flow

/-- `n` attempts to evaluate the activity of the task instance, with `gap` between any two of them. -/
def separated (gap : List TimeEv) (i o : Nat) : Nat → List TimeEv
  | 0 => []
  | 1 => [.attempt i o]
  | n + 2 => .attempt i o :: gap ++ separated gap i o (n + 1)

/-- A pause of `ms` milliseconds; there is none if the setting is not positive. -/
def gapOf (i o : Nat) (why : PauseFor) (ms : Int) : List TimeEv :=
  if ms ≤ 0 then [] else [.pause i o why ms]

/-- The evaluation left the task to be repeated. -/
def goesAgain : Eng.EvalOut → Bool
  | .res .again => true
  | _ => false

/-- The evaluation did not fail. -/
def succeeds : Eng.EvalOut → Bool
  | .res _ => true
  | _ => false

/-- The pause after a round of a loop whose delay is `ms`. A do-while loop pauses if another round follows; an iterator pauses
after every round that did not fail. -/
def roundGap (i o : Nat) (k : TaskKind) (r : Eng.EvalOut) (ms : Int) : List TimeEv :=
  match k with
  | .basic => []
  | .iterator => if succeeds r then gapOf i o .loop ms else []
  | .doWhile => if goesAgain r then gapOf i o .loop ms else []

/-- The pauses of task instance `o` of flow instance `i` between rounds of a loop. -/
def loopPauses (log : List TimeEv) (i o : Nat) : Nat := log.countP fun
  | .pause j p .loop _ => j = i ∧ p = o
  | _ => false

/-- The evaluations of the activity of the task instance. -/
def attemptsIn (log : List TimeEv) (i o : Nat) : Nat := log.countP fun
  | .attempt j p => j = i ∧ p = o
  | _ => false

end Flow.Spec
