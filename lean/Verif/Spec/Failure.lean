import Verif.Spec.Data

/-
Specification for C66: activities that fail.
-/

namespace Flow.Spec

/-- The result of an activity is a failure: an error or a panic. -/
def Failure : ActRes → Prop
  | .err _ => True
  | .panic _ => True
  | _ => False

/-- The activity of task instance `o` of flow instance `i` cannot do its work: it fails whenever it is called, or it is to
start a subflow that does not exist. -/
def Unable (env : Env) (i o : Nat) (td : TaskDef) : Prop :=
  match td.act with
  | .subflow uri => ∀ d, env.defs uri ≠ .ok (some d)
  | _ => ∀ e, Failure (env.act e i o).res

/-- There are no interceptors. -/
def NoInterceptors (env : Env) : Prop := ∀ s, env.icp s = none

end Flow.Spec
