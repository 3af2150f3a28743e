import Verif.Model.Basic

/-
Flow models and their registry: `model/model.go`, `model/registry.go`, `util/modelvalidator.go`, and the model a
flow runs with (`getFlowModel`, instance/ind_instance.go lines 863-870).
-/

namespace Flow.Reg

/-- A task behavior; only its identity matters here. `none` is a nil interface value. -/
abbrev Behavior := Option Nat

/-- `FlowModel`, model/model.go lines 5-10, without the flow behavior. -/
structure FModel where
  name : String
  dflt : Behavior := none
  behaviors : AMap String Behavior := []
  deriving DecidableEq, Repr

/-- `RegisterTaskBehavior`, model/model.go lines 50-52. -/
def FModel.addBehavior (m : FModel) (id : String) (b : Behavior) : FModel :=
  { m with behaviors := m.behaviors.set id b }

/-- `RegisterDefaultTaskBehavior`, model/model.go lines 43-47. -/
def FModel.addDefault (m : FModel) (id : String) (b : Behavior) : FModel :=
  { m.addBehavior id b with dflt := b }

/-- `IsValidTaskType`, model/model.go lines 54-62. -/
def FModel.isValid (m : FModel) (typ : String) : Bool :=
  if typ = "" ∧ m.dflt.isSome then true else (m.behaviors.get? typ).isSome

/-- `GetTaskBehavior`, model/model.go lines 65-72; a missing key gives the nil behavior. -/
def FModel.behavior (m : FModel) (typ : String) : Behavior :=
  if typ = "" then m.dflt else (m.behaviors.get? typ).join

/-- The global tables of model/registry.go lines 10-14 and util/modelvalidator.go line 3. Models are pointers:
indices into `heap`. -/
structure Registry where
  heap : List FModel := []
  models : AMap String Nat := []
  dflt : Option Nat := none
  validators : AMap String Nat := []
  deriving DecidableEq, Repr

/-- What programs do with models. -/
inductive Op
  /-- `model.New(name)` -/
  | create (name : String)
  /-- `m.RegisterTaskBehavior(id, b)` -/
  | behavior (m : Nat) (id : String) (b : Behavior)
  /-- `m.RegisterDefaultTaskBehavior(id, b)` -/
  | dfltBehavior (m : Nat) (id : String) (b : Behavior)
  /-- `model.Register(m)` -/
  | register (m : Nat)
  /-- `model.RegisterDefault(m)` -/
  | registerDefault (m : Nat)
  deriving DecidableEq, Repr

/-- `Register`, model/registry.go lines 17-33; `none` is the panic on a duplicate name. -/
def Registry.register (s : Registry) (m : Nat) (name : String) : Option Registry :=
  if (s.models.get? name).isSome then none
  else some { s with models := s.models.set name m, validators := s.validators.set name m }

/-- `RegisterDefault`, model/registry.go lines 59-75. -/
def Registry.registerDefault (s : Registry) (m : Nat) (name : String) : Registry :=
  { s with
    models := if (s.models.get? name).isSome then s.models else s.models.set name m
    dflt := some m
    validators := s.validators.set "" m }

/-- One operation; `none` if it panics (unknown models stand for nil pointers). -/
def Registry.step (s : Registry) : Op → Option Registry
  | .create n => some { s with heap := s.heap ++ [{ name := n }] }
  | .behavior m id b => if m < s.heap.length then some { s with heap := s.heap.modify m (·.addBehavior id b) } else none
  | .dfltBehavior m id b => if m < s.heap.length then some { s with heap := s.heap.modify m (·.addDefault id b) } else none
  | .register m =>
    match s.heap[m]? with
    | none => none
    | some f => s.register m f.name
  | .registerDefault m =>
    match s.heap[m]? with
    | none => none
    | some f => some (s.registerDefault m f.name)

/-- A history of operations. -/
def Registry.run (s : Registry) : List Op → Option Registry
  | [] => some s
  | o :: os => (s.step o).bind (fun s' => s'.run os)

/-- `flowutil.IsValidTaskType`, util/modelvalidator.go lines 17-26. -/
def Registry.validType (s : Registry) (modelId typ : String) : Bool :=
  match s.validators.get? modelId with
  | none => false
  | some m =>
    match s.heap[m]? with
    | none => false
    | some f => f.isValid typ

/-- The check of a task type when a definition is created, definition_ser.go lines 153-158. -/
def Registry.accepts (s : Registry) (modelId typ : String) : Bool :=
  if typ = "" then true else s.validType modelId typ

/-- `getFlowModel`, instance/ind_instance.go lines 863-870. -/
def Registry.modelOf (s : Registry) (modelId : String) : Option FModel :=
  if modelId = "" then s.dflt.bind (fun m => s.heap[m]?) else (s.models.get? modelId).bind (fun m => s.heap[m]?)

end Flow.Reg
