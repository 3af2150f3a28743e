import Verif.Model.Recording

/-
Vocabulary for the calls of a recorder.
-/

namespace Flow
namespace Spec

/-- The records of the start of a run. -/
def startsIn : List RecEv → List FlowRec
  | [] => []
  | .start f :: l => f :: startsIn l
  | _ :: l => startsIn l

/-- The states recorded during a run. -/
def statesIn : List RecEv → List Eng
  | [] => []
  | .state e :: l => e :: statesIn l
  | _ :: l => statesIn l

/-- The records of the end of a run. -/
def endsIn : List RecEv → List FlowRec
  | [] => []
  | .done f :: l => f :: endsIn l
  | _ :: l => endsIn l

/-- A state in which no step is under way. -/
def BetweenSteps (e : Eng) : Prop := e.stack = []

/-- How many steps the run has begun. -/
def stepsBegun (c : RunCfg) (r : Run) : Int := r.count - if 0 < c.initStep then c.initStep - 1 else 0

/-- The number of the step after which the first state is recorded: the state before the first step is recorded unless a later step
is the first one. -/
def firstRecorded (c : RunCfg) : Nat := if 0 < c.initStep then 1 else 0

end Spec
end Flow
