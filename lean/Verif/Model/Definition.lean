import Verif.Model.Basic

/-
Flow definitions as the engine sees them: tasks, links, the optional error handler.
The construction of a definition from its description is in `Verif.Model.DefinitionSer`.
-/

namespace Flow

/-- `definition/definition.go` lines 449-497 (`Link`): identifier, end points, type, label.
End points are task identifiers instead of pointers; the expression is an oracle of the engine. -/
structure LinkDef where
  id : LinkId
  src : TaskId
  dst : TaskId
  type : LinkType
  label : String := ""
  deriving DecidableEq, Repr

/-- Task types of the simple model, `model/simple/model.go`. -/
inductive TaskKind
  | basic | iterator | doWhile
  deriving DecidableEq, Repr

/-- `definition/definition.go` lines 257-283 (`LoopConfig`). `hasCondition` tells whether a condition
expression is configured. Its value and the value to iterate on are oracles. -/
structure LoopCfg where
  accumulate : Bool := false
  applyOutput : Bool := false
  hasCondition : Bool := false
  deriving DecidableEq, Repr

/-- What a task executes: an ordinary activity, an activity with a `PostEval`, or the subflow activity
(`activity/subflow/activity.go`). -/
inductive ActKind
  | user
  | async
  | subflow (uri : String)
  deriving DecidableEq, Repr

/-- `definition/definition.go` lines 355-421 (`Task`), without mappers (oracles). -/
structure TaskDef where
  id : TaskId
  name : String := ""
  kind : TaskKind := .basic
  loop : Option LoopCfg := none
  retry : Bool := false
  act : ActKind := .user
  outputs : List String := []
  deriving DecidableEq, Repr

/-- `cfg := ti.Task().LoopConfig(); cfg != nil && cfg.Accumulate()`, taskinst.go lines 423, 511. -/
def TaskDef.accumulates (t : TaskDef) : Bool :=
  match t.loop with
  | some c => c.accumulate
  | none => false

/-- `cfg.ApplyOutputOnAccumulate()`, taskinst.go line 428. -/
def TaskDef.appliesOutput (t : TaskDef) : Bool :=
  match t.loop with
  | some c => c.applyOutput
  | none => false

/-- `ctx.Task().LoopConfig() != nil && ctx.Task().LoopConfig().Condition() != nil`, dowhilebehavior.go line 72. -/
def TaskDef.hasCondition (t : TaskDef) : Bool :=
  match t.loop with
  | some c => c.hasCondition
  | none => false

/-- Tasks and links of a flow or of its error handler. -/
structure Graph where
  tasks : List TaskDef
  links : List LinkDef
  deriving DecidableEq, Repr

/-- `definition/definition.go` lines 23-36 (`Definition`). -/
structure Def where
  name : String
  main : Graph
  eh : Option Graph := none
  inputs : List (String × Val) := []
  hasOutputs : Bool := false
  outputs : List (String × Val) := []

/-- A task of a definition; `eh` says whether it belongs to the error handler. In Go this is a pointer to the
`Task`, which also tells tasks of the main flow and of the error handler apart. -/
structure TaskRef where
  eh : Bool
  id : TaskId
  deriving DecidableEq, Repr

/-- The graph a task belongs to. -/
def Def.graph (d : Def) : Bool → Graph
  | false => d.main
  | true => d.eh.getD ⟨[], []⟩

/-- `Task.ToLinks()`: links leaving the task, in definition order (`definition_ser.go` line 445). -/
def Graph.toLinks (g : Graph) (t : TaskId) : List LinkDef := g.links.filter (fun l => l.src = t)

/-- `Task.FromLinks()`: links entering the task, in definition order (`definition_ser.go` line 442). -/
def Graph.fromLinks (g : Graph) (t : TaskId) : List LinkDef := g.links.filter (fun l => l.dst = t)

def Def.toLinks (d : Def) (t : TaskRef) : List LinkDef := (d.graph t.eh).toLinks t.id
def Def.fromLinks (d : Def) (t : TaskRef) : List LinkDef := (d.graph t.eh).fromLinks t.id

/-- `Definition.GetTask` / `ErrorHandler.GetTask`. -/
def Def.task? (d : Def) (t : TaskRef) : Option TaskDef := (d.graph t.eh).tasks.find? (fun x => x.id = t.id)

end Flow
