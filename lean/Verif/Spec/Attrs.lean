import Verif.Spec.Loops

/-
Specification of attributes: which tasks write an attribute of a flow instance.
-/

namespace Flow.Spec

open Flow

/-- In this state `o` is an instance of task `t` in flow instance `i`. -/
def Holds (c : Eng) (i o : Nat) (t : TaskRef) : Prop := ∃ ob, c.obj? i o = some ob ∧ ob.task = t

/-- An execution of the task instance `o` of flow instance `i`, an instance of the task `t` with definition `td`, can write the
attribute `k`: its activity or its output mapping does, the task accumulates its outputs under this name, or it is the error
of the flow or of the task. -/
inductive Writes (env : Env) (i o : Nat) (t : TaskRef) (td : TaskDef) (k : String) : Prop
  | act (c : Eng) (hc : Holds c i o t) (v : Val) (h : AMap.get? (env.act c i o).sets k = some v)
  | post (c : Eng) (hc : Holds c i o t) (v : Val) (h : AMap.get? (env.post c i o).sets k = some v)
  | out (c : Eng) (hc : Holds c i o t) (vals : AMap String Val) (err : Option String) (v : Val) (hv : env.outMap c i o = some (vals, err))
      (h : AMap.get? vals k = some v)
  | accumulated (ha : Accumulating td) (h : k = "_A." ++ t.id)
  | error (h : k = "_E")
  | taskError (h : k = "_E." ++ t.id)

/-- What the output mapping of the instance `o` of task `t` yields in the state `c` is what the attributes of its flow instance are in the
state `e`; the mapping saw the outputs the task has. -/
def Mapped (env : Env) (i o : Nat) (t : TaskRef) (c e : Eng) : Prop :=
  Holds c i o t ∧ outputsOf c i o = outputsOf e i o ∧
    (env.outMap c i o = none ∨ ∃ vals, env.outMap c i o = some (vals, none) ∧
      ∀ k v, (vals.keys.Nodup → AMap.get? vals k = some v → attrAt e i k = some v) ∧ (AMap.get? vals k = none → attrAt e i k = attrAt c i k))

end Flow.Spec
