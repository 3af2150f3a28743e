import Verif.Model.Engine

/-
Specification for C41: which tasks an interceptor takes out of execution.
-/

namespace Flow.Spec

/-- The interceptor configuration says that the activity of the task is not to be run: the task is skipped (the
configuration is looked up under the identifier of the task), or its activity is mocked (the configuration is looked
up under the name of the flow, a dash and the identifier of the task). -/
def Blocked (env : Env) (flow : String) (t : TaskId) : Prop :=
  (∃ c, env.icp t = some c ∧ c.skip = true) ∨ (∃ c, env.icp (flow ++ "-" ++ t) = some c ∧ c.skipExecution = true)

end Flow.Spec
