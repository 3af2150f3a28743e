import Verif.Spec.Graph

/-
How long executions may take (C97).
-/

namespace Flow.Spec

open Flow

/-- The links of the flow and of its error handler. -/
def allLinks (d : Def) : List LinkDef := d.main.links ++ d.eh.elim [] (·.links)

/-- The tasks of the flow and of its error handler. -/
def allTasks (d : Def) : List TaskDef := d.main.tasks ++ d.eh.elim [] (·.tasks)

/-- The links of the flow and of its error handler, taken together, form no circle. -/
def NoCircle (d : Def) : Prop := ∃ rank : TaskId → Nat, ∀ l ∈ allLinks d, rank l.src < rank l.dst

/-- Every task of the flow that calls a flow calls one of a depth below `k`. -/
def CallsBelow (depth : String → Nat) (k : Nat) (d : Def) : Prop := ∀ t ∈ allTasks d, ∀ u, t.act = .subflow u → depth u < k

/-- The flows that can be called have no circles, and they do not call each other in circles: `depth` becomes smaller with every
call. -/
structure Layered (defs : String → Except Err (Option Def)) (depth : String → Nat) : Prop where
  acyclic : ∀ uri d, defs uri = .ok (some d) → NoCircle d
  down : ∀ uri d, defs uri = .ok (some d) → CallsBelow depth (depth uri) d

/-- Nothing is left to do. -/
def NothingLeft (env : Env) (e : Eng) : Prop := e.stack = [] ∧ next env e = none

/-- The next step starts a flow for a task that waits or has failed already, so that its activity is evaluated once more. -/
def Restarts (env : Env) (e : Eng) : Prop :=
  ∃ i o t e' r ob, Evaluates env e i o t e' r ∧ e.obj? i o = some ob ∧ (ob.status = .waiting ∨ ob.status = .failed) ∧
    e.insts.length < (e.step env).insts.length

end Flow.Spec
