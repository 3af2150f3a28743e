import Verif.Spec.Graph

/-
Flows that call other flows: how many steps an execution may take.
-/

namespace Flow.Spec

open Flow

/-- The steps spent on one task of a flow with `L` links; for a task that calls a flow they include the steps `P` spent on it. -/
def taskSteps (L : Nat) (P : String → Nat) (t : TaskDef) : Nat :=
  match t.act with
  | .subflow uri => 2 * (L + 4) + P uri
  | _ => L + 4

/-- The steps spent on all tasks of a flow. -/
def graphSteps (P : String → Nat) (g : Graph) : Nat := (g.tasks.map (taskSteps g.links.length P)).sum

/-- The steps spent on the flow `uri`, if calls are nested at most `k` deep. -/
def flowSteps (env : Env) : Nat → String → Nat
  | 0, _ => 0
  | k + 1, uri =>
    match env.defs uri with
    | .ok (some d) => graphSteps (flowSteps env k) d.main
    | _ => 0

/-- The flow `g` has tasks, it is covered, and no task that calls a flow is configured to repeat the call after an error. -/
structure Calls (g : Graph) : Prop where
  covered : Covered g
  nonempty : g.tasks ≠ []
  once : ∀ t ∈ g.tasks, ∀ uri, t.act = .subflow uri → t.retry = false

/-- Flows do not call each other in circles: `depth` becomes smaller with every call. -/
structure Nested (env : Env) (depth : String → Nat) : Prop where
  calls : ∀ uri d, env.defs uri = .ok (some d) → Calls d.main
  down : ∀ uri d, env.defs uri = .ok (some d) → ∀ t ∈ d.main.tasks, ∀ u, t.act = .subflow u → depth u < depth uri

/-- The tasks no link leads away from. -/
def endTasks (g : Graph) : List TaskDef := g.tasks.filter fun t => g.links.all fun l => decide (l.src ≠ t.id)

/-- Every flow that can be called has at most one end task. -/
def OneEnd (env : Env) : Prop := ∀ uri d, env.defs uri = .ok (some d) → (endTasks d.main).length ≤ 1

/-- Nothing unusual happened in any flow instance: no error went unhandled by error links, nothing was returned explicitly, and no
called flow reported its end twice. -/
def Smooth (e : Eng) : Prop := (∀ J ∈ e.insts, Undisturbed J) ∧ ∀ i, EndsOnce e i

end Flow.Spec
