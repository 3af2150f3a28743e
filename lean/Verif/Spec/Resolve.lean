import Verif.Spec.Attrs
import Verif.Model.Outputs

/-
Specifications for references in expressions.
-/

namespace Flow.Spec

open Flow

/-- The names of the outputs the activity of a task declares; `none` without metadata. -/
abbrev Declared := TaskRef → Option (List String)

/-- All tasks use the default output mapping, and activities do not write attributes that begin with `_A.` themselves. -/
structure DefaultMapping (env : Env) (declared : Declared) : Prop where
  out : ∀ c i o ob, c.obj? i o = some ob →
    env.outMap c i o = some (Out.defaultApply ob.task.id (declared ob.task) (ob.outputs.getD []), none)
  act : ∀ c i o k, "_A.".toList <+: k.toList → AMap.get? (env.act c i o).sets k = none
  post : ∀ c i o k, "_A.".toList <+: k.toList → AMap.get? (env.post c i o).sets k = none

/-- The next step evaluates a task with this name in flow instance `i`. -/
def ExecutesTask (env : Env) (e : Eng) (i : Nat) (id : TaskId) : Prop := ∃ o t e' r, Evaluates env e i o t e' r ∧ t.id = id

/-- No name of a task of flow instance `i` has a dot. -/
def PlainTasks (e : Eng) (i : Nat) : Prop := ∀ t td, e.taskDef? i t = some td → '.' ∉ t.id.toList

/-- Activities and output mappings write no error data themselves. -/
structure NoErrorWrites (env : Env) : Prop where
  act : ∀ c i o k, "_E".toList <+: k.toList → AMap.get? (env.act c i o).sets k = none
  post : ∀ c i o k, "_E".toList <+: k.toList → AMap.get? (env.post c i o).sets k = none
  out : ∀ c i o vals err k, env.outMap c i o = some (vals, err) → "_E".toList <+: k.toList → AMap.get? vals k = none

end Flow.Spec
