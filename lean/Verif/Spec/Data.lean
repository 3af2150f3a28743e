import Verif.Model.Engine

/-
Specification for C61: tasks whose data is not acceptable.
-/

namespace Flow.Spec

/-- The inputs of task instance `o` of flow instance `i` are never acceptable: their mapping fails in every state, or the
mapped inputs violate the declared schema in every state. -/
def RejectsInput (env : Env) (i o : Nat) : Prop :=
  (∀ e, ∃ m, env.inMap e i o = some (.error m)) ∨ (∀ e, ∃ err, env.inSchema e i o = some err)

/-- The outputs of task instance `o` of flow instance `i` are never acceptable: they violate the declared schema in every
state. -/
def RejectsOutput (env : Env) (i o : Nat) : Prop := ∀ e, ∃ err, env.outSchema e i o = some err

/-- The mapping of the outputs of task instance `o` of flow instance `i` to the flow attributes fails in every state. -/
def FailsOutputMap (env : Env) (i o : Nat) : Prop := ∀ e, ∃ vals m, env.outMap e i o = some (vals, some m)

/-- No interceptor takes the task out of the execution. -/
def NotSkipped (env : Env) (t : TaskId) : Prop := ∀ c, env.icp t = some c → c.skip = false

/-- The evaluation ended with an error. -/
def IsErr : Eng.EvalOut → Prop
  | .err _ => True
  | _ => False

/-- The evaluation of the task ended successfully: the task is done, or a loop goes on with the next round. -/
def Succeeds : Eng.EvalOut → Prop
  | .res .done => True
  | .res .again => True
  | _ => False

end Flow.Spec
