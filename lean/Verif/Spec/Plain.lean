import Verif.Spec.Run

/-
Simple environments for concrete cases: activities, links and conditions given by the task or link only.
-/

namespace Flow.Spec

open Flow

/-- An environment without mappers, schemas, interceptors and subflows in which every activity succeeds at once, every
expression is true and the oldest work item is taken first. -/
def plainEnv : Env where
  defs := fun _ => .ok none
  pick := fun _ => 0
  act := fun _ _ _ => {}
  post := fun _ _ _ => {}
  link := fun _ _ _ => .ok true
  inMap := fun _ _ _ => none
  outMap := fun _ _ _ => none
  settingsOk := fun _ _ _ => true
  inSchema := fun _ _ _ => none
  outSchema := fun _ _ _ => none
  retryCount := fun _ _ _ => .ok 0
  iterOn := fun _ _ _ => .ok (.arr [])
  cond := fun _ _ _ => .ok false
  toInt := fun _ => none
  order := fun m => m.keys
  icp := fun _ => none
  coerceIn := fun _ _ v => v
  coerceOut := fun _ _ v => .ok v
  appName := .str ""
  appVersion := .str ""

/-- Task of an object, `""` if there is none. -/
def taskOf (e : Eng) (i o : Nat) : TaskId :=
  match e.obj? i o with
  | none => ""
  | some ob => ob.task.id

/-- `plainEnv` with activity results by task and link outcomes by link. -/
def tableEnv (act : TaskId → ActOut) (link : LinkId → ExprOut) : Env :=
  { plainEnv with act := fun e i o => act (taskOf e i o), link := fun _ _ l => link l.id }

/-- A task with the given id. -/
def tk (id : TaskId) : TaskDef := { id := id, name := id }

/-- Dependency links numbered from `n` for the given pairs. -/
def deps (n : Nat) : List (TaskId × TaskId) → List LinkDef
  | [] => []
  | (a, b) :: xs => ⟨n, a, b, .dependency, ""⟩ :: deps (n + 1) xs

end Flow.Spec
