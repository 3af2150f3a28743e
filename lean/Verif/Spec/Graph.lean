import Verif.Spec.Run
import Verif.Spec.Links

/-
Flow graphs: paths, acyclicity, the order of links, and which tasks have to run. Only the data types of definitions are
shared with the model.
-/

namespace Flow.Spec

open Flow

/-- There is a path from task `a` to task `c` (possibly of length zero). -/
inductive Path (g : Graph) : TaskId → TaskId → Prop
  | refl (a : TaskId) : Path g a a
  | step {l : LinkDef} {c : TaskId} (hl : l ∈ g.links) (h : Path g l.dst c) : Path g l.src c

/-- The tasks can be numbered such that all links go upwards. -/
def Acyclic (g : Graph) : Prop := ∃ rank : TaskId → Nat, ∀ l ∈ g.links, rank l.src < rank l.dst

/-- Task identifiers are unique, link identifiers are unique, and links connect tasks of the graph. -/
structure WellFormed (g : Graph) : Prop where
  tasks : (g.tasks.map (·.id)).Nodup
  links : (g.links.map (·.id)).Nodup
  src : ∀ l ∈ g.links, ∃ t ∈ g.tasks, t.id = l.src
  dst : ∀ l ∈ g.links, ∃ t ∈ g.tasks, t.id = l.dst

/-- A link that is followed whenever its source task succeeds. -/
def Always (l : LinkDef) : Prop := l.type = .dependency ∨ l.type = .label

/-- A task without incoming links. -/
def IsStart (g : Graph) (t : TaskId) : Prop := ∀ l ∈ g.links, l.dst ≠ t

/-- The order of the links of one task is safe: no two of them have the same target, and if the target of an earlier one
leads to the target of a later one, then it is impossible that neither of the two is followed: the task is a start task
without error links and one of the two links is always followed. -/
def OrderSafe (g : Graph) : Prop :=
  ∀ t : TaskId, (g.links.filter (fun l => l.src = t)).Pairwise (fun l1 l2 => l1.dst ≠ l2.dst ∧
    (Path g l1.dst l2.dst → IsStart g t ∧ (∀ l ∈ g.links, l.src = t → l.type ≠ .error) ∧ (Always l1 ∨ Always l2)))

/-- The tasks that have to run, given which links are followed when their source runs: the start tasks, and the targets
of followed links of tasks that have to run. -/
inductive Runs (g : Graph) (followed : LinkDef → Prop) : TaskId → Prop
  | start {t : TaskId} (ht : ∃ td ∈ g.tasks, td.id = t) (hs : IsStart g t) : Runs g followed t
  | link {l : LinkDef} (hl : l ∈ g.links) (hf : followed l) (h : Runs g followed l.src) : Runs g followed l.dst

/-- The task became ready in this execution, that is, it was given to the work queue. -/
def Executed (tr : List Ev) (t : TaskId) : Prop := ∃ o, .taskStatus o ⟨false, t⟩ .ready ∈ tr

/-- The link was followed in this execution. -/
def Followed (tr : List Ev) (l : LinkDef) : Prop := .linkStatus l.id .true ∈ tr

/-- The flow definitions covered by the theorems about whole executions: acyclic, with a safe order of links; tasks that start
other flows are not loops. -/
structure Covered (g : Graph) : Prop where
  wf : WellFormed g
  acyclic : Acyclic g
  order : OrderSafe g
  sub : ∀ t ∈ g.tasks, ∀ uri, t.act = .subflow uri → t.kind = .basic

/-- No task starts another flow. -/
def Leaf (g : Graph) : Prop := ∀ t ∈ g.tasks, ∀ uri, t.act ≠ .subflow uri

/-- No error went unhandled by error links so far, and no activity ended the flow by an explicit return. -/
def Undisturbed (I : Inst) : Prop := I.handling = false ∧ I.force = false

/-- A report that a flow instance is completed or failed. -/
def isEnd : Post → Bool
  | .flow .completed _ => true
  | .flow .failed _ => true
  | _ => false

/-- How often the end of the flow instance was reported. -/
def endings (I : Inst) : Nat := I.posted.countP isEnd

/-- None of the subflows called by instance `i` reported its end twice. -/
def EndsOnce (e : Eng) (i : Nat) : Prop := ∀ J ∈ e.insts, ∀ o, J.host = some (i, o) → endings J ≤ 1

/-- The subflows called by instance `i` end at most once, and no flow instance started its error handler if `i` is the main flow. -/
def Served (e : Eng) (i : Nat) : Prop := EndsOnce e i ∧ (i = 0 → ∀ J ∈ e.insts, .ehStart ∉ J.trace)

/-- None of the subflows called by instance `i` failed and continued with its error handler. -/
def Calmed (e : Eng) (i : Nat) : Prop := ∀ J ∈ e.insts, ∀ o, J.host = some (i, o) → J.handling = false

/-- The settings of every task can be computed. -/
def SettingsOk (env : Env) : Prop := ∀ e i o, env.settingsOk e i o = true

/-- The flow instance has an instance of the task with this status. -/
def HasStatus (I : Inst) (t : TaskId) (s : TaskStatus) : Prop := ∃ ob ∈ I.objs, ob.task = ⟨false, t⟩ ∧ ob.status = s

/-- The task is finished. -/
def Finished (I : Inst) (t : TaskId) : Prop := HasStatus I t .done ∨ HasStatus I t .failed ∨ HasStatus I t .skipped

/-- The result of the behavior: evaluate the task again. -/
def isAgain : Eng.EvalOut → Bool
  | .res .again => true
  | _ => false

/-- The next step executes a round of a loop that is to be followed by another one. -/
def loopsBack (env : Env) (e : Eng) : Bool :=
  (next env e).any fun w => (outcome env (afterPop env e w) w.inst w.obj).any fun p => isAgain p.2

/-- How many of the first `n` steps are such rounds. -/
def loopRounds (env : Env) (e : Eng) (n : Nat) : Nat := (List.range n).countP fun m => loopsBack env (Eng.run env e m)

end Flow.Spec
