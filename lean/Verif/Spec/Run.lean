import Verif.Spec.Trace

/-
Runs of the engine: reachable states and what can be observed of them.
-/

namespace Flow.Spec

open Flow

/-- `e` is a state of a run of some flow definition with some inputs. -/
def Reachable (env : Env) (e : Eng) : Prop :=
  ∃ id uri d ins n, e = Eng.run env (Eng.init env id uri d ins) n

/-- Status of flow instance `i`. -/
def flowStatus (e : Eng) (i : Nat) : Option FlowStatus := (e.insts[i]?).map (·.status)

/-- The activity calls of a trace. -/
def isCall : Ev → Bool
  | .evalAct .. => true
  | .postAct .. => true
  | _ => false

/-- The calls of activities that flow instance `i` has made, newest first. -/
def calls (e : Eng) (i : Nat) : List Ev :=
  match e.insts[i]? with
  | none => []
  | some I => I.trace.filter isCall

/-- The evaluations (without post-evaluations) of task `t` by flow instance `i`. -/
def evalsOf (e : Eng) (i : Nat) (t : TaskRef) : List Ev :=
  match e.insts[i]? with
  | none => []
  | some I => I.trace.filter (fun ev => match ev with | .evalAct _ u => u = t | _ => false)

/-- The work item that the next step takes from the queue: control is between two steps, the flow is active and the queue
is not empty. -/
def next (env : Env) (e : Eng) : Option WorkItem :=
  if e.stack = [] ∧ flowStatus e 0 = some .active then e.queue[env.pick e % e.queue.length]? else none

/-- The state in which the work item is executed. -/
def afterPop (env : Env) (e : Eng) (w : WorkItem) : Eng :=
  { e with stepID := e.stepID + 1, queue := e.queue.eraseIdx (env.pick e % e.queue.length), qlog := .removed w :: e.qlog }

/-- What the behavior of the task of a work item yields: the state it leaves and its result. `none` if the task instance
is already finished, so that nothing is evaluated. -/
def outcome (env : Env) (e : Eng) (i o : Nat) : Option (Eng × Eng.EvalOut) :=
  match e.obj? i o with
  | none => none
  | some ob => match e.taskDef? i ob.task with
    | none => none
    | some td =>
      if ob.status = .waiting then some (e.postKind env i o td)
      else if ob.status = .skipped ∨ ob.status = .done then none
      else some (e.evalKind env i o td)

/-- The instance that the next step executes. -/
def actor (env : Env) (e : Eng) : Nat :=
  match next env e with
  | some w => w.inst
  | none => e.cur

/-- The next step evaluates the task instance `o` of flow instance `i`, an instance of task `t`; the evaluation leaves
the state `e'` and ends with result `r`. -/
structure Evaluates (env : Env) (e : Eng) (i o : Nat) (t : TaskRef) (e' : Eng) (r : Eng.EvalOut) : Prop where
  item : ∃ w, next env e = some w ∧ w.inst = i ∧ w.obj = o ∧ outcome env (afterPop env e w) i o = some (e', r)
  task : (e.obj? i o).map (·.task) = some t

/-- Has the task an error link? -/
def hasErrorLink (d : Def) (t : TaskRef) : Prop := ∃ l ∈ d.toLinks t, l.type = .error

end Flow.Spec
