import Verif.Model.Basic

/-
Patches (support/patch.go and its use in instance/util.go) and the reading of flow files (support/manager.go).
-/

namespace Flow.Sup

/-! ### Patches -/

/-- A mapper, given by what it does. Mappers are objects of another package. -/
abbrev Mapper := AMap String Val → AMap String Val

/-- `TaskPatch`, patch.go lines 60-69; the attributes are left out (nothing reads them). The mappers are unexported
fields. -/
structure TaskPatch where
  id : TaskId
  input : AMap String Val := []
  output : AMap String Val := []
  inputMapper : Option Mapper := none
  outputMapper : Option Mapper := none

/-- `Patch`, patch.go lines 10-14. -/
structure Patch where
  taskPatches : List TaskPatch := []
  taskPatchMap : AMap TaskId TaskPatch := []

/-- A patch as it arrives from outside the package: deserialised, or built from its exported fields. The unexported
fields have their zero values. -/
def Patch.ofTasks (l : List (TaskId × AMap String Val × AMap String Val)) : Patch :=
  { taskPatches := l.map (fun p => { id := p.1, input := p.2.1, output := p.2.2 }) }

/-- `Patch.Init`, patch.go lines 17-28. -/
def Patch.init (p : Patch) : Patch :=
  if p.taskPatches.length > 0 then
    { p with taskPatchMap := p.taskPatches.foldl (fun m t => m.set t.id t) [] }
  else p

/-- `Patch.GetInputMapper`, patch.go lines 36-44. -/
def Patch.getInputMapper (p : Patch) (t : TaskId) : Option Mapper := (p.taskPatchMap.get? t).bind (·.inputMapper)

/-- `Patch.GetOutputMapper`, patch.go lines 47-55. -/
def Patch.getOutputMapper (p : Patch) (t : TaskId) : Option Mapper := (p.taskPatchMap.get? t).bind (·.outputMapper)

/-- The mapper used for the inputs of a task, util.go lines 46-60: that of the patch if there is one, otherwise that of
the definition. -/
def chooseInput (patch : Option Patch) (t : TaskId) (defn : Option Mapper) : Option Mapper :=
  match patch with
  | none => defn
  | some p =>
    match p.getInputMapper t with
    | none => defn
    | some m => some m

/-- The mapper used for the outputs of a task, util.go lines 306-320. -/
def chooseOutput (patch : Option Patch) (t : TaskId) (defn : Option Mapper) : Option Mapper :=
  match patch with
  | none => defn
  | some p =>
    match p.getOutputMapper t with
    | none => defn
    | some m => some m

/-! ### Flow files -/

/-- What happens with the content of a flow file. -/
inductive Loaded
  /-- index out of range -/
  | crash
  /-- the bytes handed to the JSON parser -/
  | parse (bytes : List UInt8)
  /-- "error uncompressing flow" -/
  | failed
  deriving DecidableEq

/-- The choice between compressed and plain content, manager.go lines 88-104. `gunzip` is `unzip`, lines 165-178. The
second condition is only evaluated if the first one holds. -/
def loadFile (gunzip : List UInt8 → Option (List UInt8)) (bytes : List UInt8) : Loaded :=
  match bytes[0]? with
  | none => .crash
  | some b0 =>
    if b0 = 0x1f then
      match bytes[2]? with
      | none => .crash
      | some b2 =>
        if b2 = 0x8b then
          match gunzip bytes with
          | none => .failed
          | some r => .parse r
        else .parse bytes
    else .parse bytes

end Flow.Sup
