import Verif.Model.Launch
import Verif.Model.Snapshot

/-
The variables of the packages that make flows available: `ActionFactory.Initialize` of `action.go` (lines 56-126) and of
`ondemand/action.go` (lines 72-140), which have variables of their own and share those of `support/definition.go`; `GetDefinition`
and `SetResource` (`support/definition.go`), `GetFlow` of the flow manager (`support/manager.go` lines 44-71) without other
goroutines (see `Model/Manager` for them), `New` (`action.go` lines 128-155).

Not modelled: the factories for expressions and mappers, which are the same every time, and the generator of identifiers.
-/

namespace Flow.Setup

/-- Functions of other modules: `strings.ToLower`, `strings.EqualFold("full", ·)`, and the identifier under which the resource manager
of the core library looks for a URI. -/
structure Lib where
  lower : String → String
  fold : String → Bool
  key : String → String

/-- The two packages with a factory for actions. -/
inductive Pkg
  | flow | ondemand
deriving DecidableEq, Repr

/-- `action.InitContext`: the runtime settings, the state recorder among the services, and the resource manager, by its address. -/
structure App where
  settings : RtSettings := {}
  recorder : Option Nat := none
  resources : Nat

/-- Package variables of action.go lines 44-50 and ondemand/action.go lines 50-60. -/
structure Vars where
  manager : Option Nat := none
  recorder : Option Nat := none
  mode : Mode := .off

/-- The object of a resource: a flow definition or something else. -/
inductive Res
  | flow (d : Def)
  | other

/-- The process: the variables of the packages, `flowManager` and `resManager` of support/definition.go (set together), whether and
how changes are tracked (instance_chg.go lines 57-60), the contents of the resource managers and of the flow managers, and the next
address. -/
structure Proc where
  vars : Pkg → Vars := fun _ => {}
  lookup : Option (Nat × Nat) := none
  tracking : Option Mode := none
  res : Nat → AMap String Res := fun _ => []
  loaded : Nat → AMap String Def := fun _ => []
  next : Nat := 0

def Proc.setVars (p : Proc) (k : Pkg) (v : Vars) : Proc := { p with vars := fun x => if x = k then v else p.vars x }

/-- `ActionFactory.Initialize`, action.go lines 56-126 and ondemand/action.go lines 72-140. It never returns an error.
`initAction` is lines 74-102: the recording mode is set also if it is not supported; then nothing else happens. -/
def Proc.initialize (L : Lib) (p : Proc) (k : Pkg) (a : App) : Proc :=
  match (p.vars k).manager with
  | some _ => p
  | none =>
    let i := initAction L.lower L.fold a.settings
    if i.finished then
      let m := p.next
      let p1 := p.setVars k { manager := some m, recorder := a.recorder.or (p.vars k).recorder, mode := i.mode }
      { p1 with
        lookup := some (m, a.resources)
        tracking := if a.recorder.isSome && i.mode.recordSteps then some i.mode else p.tracking
        next := m + 1 }
    else p.setVars k { p.vars k with mode := i.mode }

/-- What a function gives: a value, an error, or a nil pointer was dereferenced. -/
inductive Out (α : Type)
  | ok (a : α)
  | error (e : Err)
  | panic

/-- `FlowManager.GetFlow`, support/manager.go lines 44-71; `provided` is what the provider and `materializeFlow` give now. -/
def Proc.getFlow (p : Proc) (m : Nat) (uri : String) (provided : Except Err Def) : Proc × Except Err Def :=
  match (p.loaded m).get? uri with
  | some d => (p, .ok d)
  | none =>
    match provided with
    | .error e => (p, .error e)
    | .ok d => ({ p with loaded := fun x => if x = m then (p.loaded m).set uri d else p.loaded x }, .ok d)

/-- `GetDefinition`, support/definition.go lines 19-45: the definition, if there is one, and whether it is a resource. -/
def Proc.getDefinition (L : Lib) (p : Proc) (uri : String) (provided : Except Err Def) : Proc × Out (Option Def × Bool) :=
  match p.lookup with
  | none => (p, .panic)
  | some (m, r) =>
    if Launch.isResource uri then
      match (p.res r).get? (L.key uri) with
      | some (.flow d) => (p, .ok (some d, true))
      | _ => (p, .ok (none, false))
    else
      match p.getFlow m uri provided with
      | (p1, .error e) => (p1, .error e)
      | (p1, .ok d) => (p1, .ok (some d, false))

/-- `ActionFactory.New` of action.go, lines 128-155. -/
def Proc.newAction (L : Lib) (p : Proc) (uri : String) (provided : Except Err Def) : Proc × Out Launch.Action :=
  match p.getDefinition L uri provided with
  | (p1, .panic) => (p1, .panic)
  | (p1, .error e) => (p1, .error e)
  | (p1, .ok (none, _)) => (p1, .error (.plain ("unable to resolve flow: " ++ uri)))
  | (p1, .ok (some d, b)) => (p1, .ok ⟨uri, if b then some d else none⟩)

/-- The definition that a new instance executes, action.go lines 225-235, for an action created for `a.uri`. -/
def Proc.startDef (p : Proc) (a : Launch.Action) (provided : Except Err Def) : Proc × Out Def :=
  match a.res with
  | some d => (p, .ok d)
  | none =>
    match (p.vars .flow).manager with
    | none => (p, .panic)
    | some m =>
      match p.getFlow m a.uri provided with
      | (p1, .error e) => (p1, .error e)
      | (p1, .ok d) => (p1, .ok d)

/-- The definition that a task executes which calls a flow, instance/util.go lines 361-367. -/
def Proc.calledDef (L : Lib) (p : Proc) (uri : String) (provided : Except Err Def) : Proc × Out Def :=
  match p.getDefinition L uri provided with
  | (p1, .panic) => (p1, .panic)
  | (p1, .error e) => (p1, .error e)
  | (p1, .ok (none, _)) => (p1, .error (.plain ("unable to resolve subflow: " ++ uri)))
  | (p1, .ok (some d, _)) => (p1, .ok d)

/-- `SetResource`, support/definition.go lines 47-67: each entry is the identifier of a resource and what its type, loader and
`LoadResource` give. -/
def Proc.setResource (p : Proc) : List (String × Except Err Res) → Proc × Out Unit
  | [] => (p, .ok ())
  | (id, x) :: cs =>
    match x with
    | .error e => (p, .error e)
    | .ok r =>
      match p.lookup with
      | none => (p, .panic)
      | some (_, m) =>
        Proc.setResource { p with res := fun y => if y = m then (p.res m).set id r else p.res y } cs

/-- A sequence of initialisations. -/
def Proc.initAll (L : Lib) (p : Proc) (l : List (Pkg × App)) : Proc :=
  l.foldl (fun p x => p.initialize L x.1 x.2) p

end Flow.Setup
