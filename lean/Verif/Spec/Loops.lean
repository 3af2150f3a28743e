import Verif.Spec.Run

/-
Specification of loops: what is iterated over, and evaluations of a task.
-/

namespace Flow.Spec

open Flow

/-- The elements an iterator visits, in order, as pairs of key and value; `none` for a value that cannot be iterated.
`toInt` converts a text to a count, `order` lists the keys of an object. -/
def elements (toInt : String → Option Int) (order : AMap String Val → List String) : Val → Option (List (Val × Val))
  | .null => some []
  | .bool _ => none
  | .int n => some ((List.range n.toNat).map (fun (k : Nat) => (.int k, .int k)))
  | .str s => (toInt s).map (fun n => (List.range n.toNat).map (fun (k : Nat) => (.int k, .int k)))
  | .arr l => some (l.mapIdx (fun (k : Nat) v => (.int k, v)))
  | .slice l => some (l.mapIdx (fun (k : Nat) v => (.int k, v)))
  | .obj m => some ((order m).map (fun k => (.str k, (AMap.get? m k).getD .null)))

/-- The next step starts an evaluation of the task instance (it does not resume a waiting one). -/
def Starts (env : Env) (e : Eng) (i o : Nat) (t : TaskRef) (e' : Eng) (r : Eng.EvalOut) : Prop :=
  Evaluates env e i o t e' r ∧ ∀ ob, e.obj? i o = some ob → ob.status ≠ .waiting

/-- The number of calls of the activity of task instance `o` of flow instance `i` so far. -/
def evalCount (e : Eng) (i o : Nat) (t : TaskRef) : Nat :=
  match e.insts[i]? with
  | none => 0
  | some I => I.trace.count (.evalAct o t)

/-- Nothing prevents the activity of the task instance from being called: its input mapper and input schema never fail
and there are no interceptors. -/
structure Steady (env : Env) (i o : Nat) : Prop where
  inMap : ∀ e m, env.inMap e i o ≠ some (.error m)
  inSchema : ∀ e, env.inSchema e i o = none
  icp : ∀ s, env.icp s = none

/-- What the result of the activity means for the task: `again` if the activity is done, unless processing its outputs
fails, `wait` if it is not done, an error if it failed. -/
def iterResult (again : Eng.EvalOut) : ActRes → Eng.EvalOut → Prop
  | .done, r => r = again ∨ ∃ err, r = .err err
  | .wait, r => r = .res .wait
  | .err _, r => ∃ err, r = .err err
  | .panic _, r => ∃ err, r = .err err

/-- The outcome of the condition of a task, if it has one; only a task with a loop configuration can have a condition. -/
def conditionOf (td : TaskDef) (out : CondOut) : Option CondOut := td.loop.bind (fun c => if c.hasCondition then some out else none)

/-- What the condition of a do-while task means for the task; a task without condition does not repeat. -/
def afterCondition : Option CondOut → Eng.EvalOut
  | none => .res .done
  | some (.ok true) => .res .again
  | some (.ok false) => .res .done
  | some (.err err) => .err err
  | some (.panic m) => .panic m

/-- What the result of the activity means for a do-while task: if the activity is done the condition decides, unless
processing the outputs fails. -/
def doWhileResult (cond : Option CondOut) : ActRes → Eng.EvalOut → Prop
  | .done, r => r = afterCondition cond ∨ ∃ err, r = .err err
  | .wait, r => r = .res .wait
  | .err _, r => ∃ err, r = .err err
  | .panic _, r => ∃ err, r = .err err

/-- The entries of an accumulated output; nothing yet is the empty list. -/
def entries : Option Val → Option (List Val)
  | none => some []
  | some (.arr l) => some l
  | some _ => none

/-- The attribute `key` of flow instance `i`. -/
def attrAt (e : Eng) (i : Nat) (key : String) : Option Val := (e.insts[i]?).bind (fun I => I.attrs.get? key)

/-- The outputs of the task instance, as a value. -/
def outputsOf (e : Eng) (i o : Nat) : Val := .obj (((e.obj? i o).bind (·.outputs)).getD [])

/-- Activities and output mappings do not use the attribute. -/
structure Reserved (env : Env) (key : String) : Prop where
  act : ∀ e j p, (env.act e j p).sets.get? key = none
  post : ∀ e j p, (env.post e j p).sets.get? key = none
  out : ∀ e j p vals err, env.outMap e j p = some (vals, err) → vals.get? key = none

/-- The loop of the task is configured to accumulate its outputs. -/
def Accumulating (td : TaskDef) : Prop := ∃ c, td.loop = some c ∧ c.accumulate = true

/-- The asynchronous activity of the task may be unfinished when it is resumed. -/
def Lingers (env : Env) (td : TaskDef) (i o : Nat) : Prop := td.act = .async ∧ ∃ e, (env.post e i o).res = .wait

/-- The evaluation with this result finished an iteration of the task: the task is to be evaluated again, or it is done. An
iterator that finds no further element is done without an iteration. -/
def FinishesIteration (env : Env) (td : TaskDef) (e : Eng) (i o : Nat) (r : Eng.EvalOut) : Prop :=
  ∃ ob, e.obj? i o = some ob ∧
    (ob.status = .waiting → (r = .res .again ∨ r = .res .done) ∧ ¬Lingers env td i o) ∧
    (ob.status ≠ .waiting → r = .res .again ∨ r = .res .done ∧ td.kind ≠ .iterator)

/-- The evaluation with this result finished no iteration. -/
def NoIteration (td : TaskDef) (e : Eng) (i o : Nat) (r : Eng.EvalOut) : Prop :=
  r = .res .wait ∨ r = .res .done ∧ td.kind = .iterator ∧ ∃ ob, e.obj? i o = some ob ∧ ob.status ≠ .waiting

/-- The entries that the next step adds to the accumulated outputs of task `id` of flow instance `i`: none if it evaluates
no such task, the outputs of the task if it finishes an iteration. -/
structure Contributes (env : Env) (e : Eng) (i : Nat) (id : TaskId) (new : List Val) : Prop where
  quiet : (∀ o t e' r, Evaluates env e i o t e' r → t.id ≠ id) → new = []
  most : ∀ o t e' r, Evaluates env e i o t e' r → new = [] ∨ new = [outputsOf e' i o]
  finished : ∀ o t e' r td, Evaluates env e i o t e' r → t.id = id → e.taskDef? i t = some td → Accumulating td →
    FinishesIteration env td e i o r → new = [outputsOf e' i o]
  other : ∀ o t e' r td, Evaluates env e i o t e' r → e.taskDef? i t = some td →
    (¬Accumulating td ∨ NoIteration td e i o r) → new = []

end Flow.Spec
