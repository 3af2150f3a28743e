import Verif.Model.Activity
import Verif.Model.Outputs

/-
What an activity reads and writes through its context: `TaskInst` as `activity.Context` (instance/taskinst.go lines 103-149), the
context of legacy activities (`LegacyCtx`, lines 627-690), and what of it is stored in the flow when the task is finished
(`applyOutputMapper`, instance/util.go lines 306-338, with the default output mapper of every activity, definition_ser.go line 347).

Not modelled: logging, tracing, schemas, `GetSharedTempData` (returns nil). The engine model (`Verif.Model.Engine`) has the outcome of a call
of an activity as one value; here the call is the sequence of what the activity does with its context.
-/

namespace Flow.Ctx

open Act

/-- One use of the context by an activity. `SetOutputObject` is given by the result of `ToMap` (`none`: nil). `getOutput` and `getSetting` exist
for legacy activities only. -/
inductive Op
  | getInput (n : String)
  | setOutput (n : String) (v : Val)
  | setObject (m : Option (AMap String Val))
  | getOutput (n : String)
  | getSetting (n : String)

/-- What is relevant of a `TaskInst`: its inputs and outputs (`none`: nil) and the configuration of its activity, with the flag `IsLegacy`
(definition.go line 203). -/
structure Tsk where
  cfg : ActCfg
  legacy : Bool := false
  inputs : Option (AMap String Val) := none
  outputs : Option (AMap String Val) := none

/-- `TaskInst.GetInput`, taskinst.go lines 103-111. -/
def Tsk.getInput (t : Tsk) (n : String) : Val := (t.inputs.bind (AMap.get? · n)).getD .null

/-- `TaskInst.SetOutput`, lines 114-127. -/
def Tsk.setOutput (t : Tsk) (n : String) (v : Val) : Tsk := { t with outputs := some ((t.outputs.getD []).set n v) }

/-- `TaskInst.SetOutputObject`, lines 146-149. -/
def Tsk.setObject (t : Tsk) (m : Option (AMap String Val)) : Tsk := { t with outputs := m }

/-- `ActivityConfig.GetOutput`, definition.go lines 215-220. -/
def _root_.Flow.Act.ActCfg.getOutput (c : ActCfg) (n : String) : Val := (c.outputs.bind (AMap.get? · n)).getD .null

/-- `ActivityConfig.GetSetting`, definition.go lines 235-245. -/
def _root_.Flow.Act.ActCfg.getSetting (c : ActCfg) (n : String) : Option Val := AMap.get? c.settings n

/-- `LegacyCtx.GetOutput`, taskinst.go lines 632-643. -/
def Tsk.getOutput (t : Tsk) (n : String) : Val :=
  match t.outputs.bind (AMap.get? · n) with
  | some v => v
  | none => if 0 < t.cfg.ref.length then t.cfg.getOutput n else .null

/-- One use of the context; the answer, if there is one. The second component of the answer of `GetSetting` is its flag. -/
def step (t : Tsk) : Op → Tsk × Option (Val × Bool)
  | .getInput n => (t, some (t.getInput n, true))
  | .setOutput n v => (t.setOutput n v, none)
  | .setObject m => (t.setObject m, none)
  | .getOutput n => (t, if t.legacy then some (t.getOutput n, true) else none)
  | .getSetting n => (t, if t.legacy then some ((t.cfg.getSetting n).getD .null, (t.cfg.getSetting n).isSome) else none)

/-- An answer of the context; `none` for uses without answer. -/
abbrev Ans := Option (Val × Bool)

/-- A call of the activity: what it does with its context, one after the other, and the answers. -/
def call (t : Tsk) : List Op → Tsk × List Ans
  | [] => (t, [])
  | op :: ops => ((call (step t op).1 ops).1, (step t op).2 :: (call (step t op).1 ops).2)

/-- What is stored in the attributes of the flow after a call; `declared` are the outputs in the metadata of the activity. -/
def stored (id : TaskId) (declared : List String) (t : Tsk) : AMap String Val := Out.defaultApply id (some declared) (t.outputs.getD [])

/-- The attributes of the flow, the task instance, and everything its activity was answered so far. -/
structure St where
  attrs : AMap String Val
  tsk : Tsk
  log : List Ans := []

/-- One execution of the activity by a task instance: the input mapper sets the inputs (util.go line 74), the activity is called, and its
outputs are stored in the attributes of the flow. Nothing resets the outputs before the call (`EvalActivity`, taskinst.go lines 298-447). -/
def play (id : TaskId) (declared : List String) (s : St) (c : AMap String Val × List Op) : St :=
  let r := call { s.tsk with inputs := some c.1 } c.2
  { attrs := s.attrs.update (stored id declared r.1), tsk := r.1, log := s.log ++ r.2 }

/-- Executions of the activity by the same task instance, one after the other: iterations of a loop, or attempts. -/
def plays (id : TaskId) (declared : List String) (s : St) (l : List (AMap String Val × List Op)) : St :=
  l.foldl (play id declared) s

end Flow.Ctx
