import Verif.Spec.Loops

/-
Specification of results: what an error object says, what a flow returns.
-/

namespace Flow.Spec

open Flow

/-- The field of an object value. -/
def field (v : Val) (k : String) : Option Val :=
  match v with
  | .obj l => AMap.get? l k
  | _ => none

/-- The task an error speaks about, seen from the task `t` that fails with it: the one named in the error, or `t`. -/
def source (t : TaskId) : Err → String
  | .act _ _ _ a _ => if a = "" then t else a
  | .eval n _ _ => n
  | .linkExpr _ => t
  | .plain _ => t

/-- The error object `v` of task `t` describes the error: its message, the task it speaks about, and for an activity error
its code and data. -/
structure Describes (v : Val) (t : TaskId) (err : Err) : Prop where
  message : field v "message" = some (.str err.msg)
  activity : field v "activity" = some (.str (source t err))
  details : ∀ m c d a r, err = .act m c d a r → field v "code" = some (.str c) ∧ field v "data" = some d

/-- The activity of task instance `o` of flow instance `i`, an instance of task `t`, is called in state `c` during the step
from `e`: one more call of the instance is recorded, nothing of its status, return data and task statuses has changed. -/
structure CalledIn (i o : Nat) (t : TaskRef) (e c : Eng) : Prop where
  calls : calls c i = .evalAct o t :: calls e i
  status : ∀ j, flowStatus c j = flowStatus e j
  length : c.insts.length = e.insts.length
  others : ∀ j, j ≠ i → c.insts[j]? = e.insts[j]?

/-- A flow instance has ended with the given return data and return error. -/
def EndedWith (e : Eng) (i : Nat) (d : Option (AMap String Val)) (er : Option Err) : Prop :=
  ∃ J : Inst, e.insts[i]? = some J ∧ J.status = .completed ∧ J.returnData = d ∧ J.returnError = er

end Flow.Spec
