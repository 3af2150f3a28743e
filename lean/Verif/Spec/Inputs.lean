import Verif.Spec.Attrs
import Verif.Spec.Data
import Verif.Spec.Loops
import Verif.Model.Resolve

/-
Specification for C84: the inputs an activity is called with.
-/

namespace Flow.Spec

open Flow

/-- The inputs `ins` come from the inputs `base` by what an interceptor, if there is one, prescribes for the task. -/
def Overridden (env : Env) (t : TaskRef) (base ins : AMap String Val) : Prop :=
  (env.icp t.id = none → ins = base) ∧
  ∀ tc, env.icp t.id = some tc → tc.inputs.keys.Nodup → ∀ k,
    ins.get? k = ((tc.inputs.get? k).map (env.coerceIn t k)).or (base.get? k)

/-- What the input mapping yields in the state `s`; without mapping the inputs stay what they are. -/
def MappedInputs (env : Env) (s : Eng) (i o : Nat) (base : AMap String Val) : Prop :=
  env.inMap s i o = some (.ok base) ∨ env.inMap s i o = none ∧ (s.obj? i o).map (·.inputs) = some base

/-- Task instance `o` of flow instance `i` has, in the state `c`, exactly the inputs that its input mapping yields from the current
values: those of the flow attributes and the iteration variables of the task in the same state. -/
def Fed (env : Env) (c : Eng) (i o : Nat) : Prop :=
  ∃ s ob ob' base, s.obj? i o = some ob' ∧ c.obj? i o = some ob ∧
    (∀ k, attrAt s i k = attrAt c i k) ∧ ob' = { ob with inputs := ob'.inputs } ∧
    MappedInputs env s i o base ∧ Overridden env ob.task base ob.inputs

/-- What the result of an activity means for its task: a task whose activity is not done waits, one whose activity failed fails. -/
def Answer : ActRes → Eng.EvalOut → Prop
  | .done, r => r ≠ .res .wait
  | .wait, r => r = .res .wait
  | .err _, r => IsErr r
  | .panic _, r => IsErr r

/-- Task instance `o` of flow instance `i` has an input mapping, and it maps the input `x` to the reference `ref`. -/
def MapsTo (env : Env) (path : Val → String → Option Val) (i o : Nat) (x : String) (ref : Res.Ref) : Prop :=
  ∀ s, ∃ y, env.inMap s i o = some y ∧ ∀ m, y = .ok m → m.get? x = Res.resolve path (Res.taskScope s i o) ref

end Flow.Spec
