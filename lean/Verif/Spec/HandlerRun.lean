import Verif.Spec.Graph
import Verif.Spec.Cycle

/-
What the execution of an error handler is, independently of how the engine executes it.
-/

namespace Flow.Spec

open Flow

/-- The result of the behavior: it panicked. -/
def isPanic : Eng.EvalOut → Bool
  | .panic _ => true
  | _ => false

/-- The next step executes a task whose behavior panics. -/
def panics (env : Env) (e : Eng) : Bool :=
  (next env e).any fun w => (outcome env (afterPop env e w) w.inst w.obj).any fun p => isPanic p.2

/-- The tasks of the graph without incoming links. -/
def startTasks (g : Graph) : List TaskDef := g.tasks.filter fun t => !g.links.any fun l => l.dst = t.id

/-- The next step makes the flow handle an error with the error handler `g`: then the instance is `I0`, and nothing of the flow is left
in the work queue. No other flow has been started. -/
structure StartsHandler (env : Env) (e : Eng) (I0 : Inst) (g : Graph) : Prop where
  before : ∃ I, e.insts = [I] ∧ I.handling = false
  after : (Eng.step env e).insts = [I0]
  handling : I0.handling = true
  handler : I0.defn.eh = some g
  pending : (Eng.step env e).queue = []

/-- `n` steps after the error handler was started the instance is `J`; it has not failed, no activity has ended the flow by an explicit
return and no task of the error handler has panicked outside its activity (by a condition of a loop that is no truth value). -/
structure HandlerRun (env : Env) (e : Eng) (I0 : Inst) (g : Graph) (n : Nat) (J : Inst) : Prop where
  reach : Reachable env e
  starts : StartsHandler env e I0 g
  inst : (Eng.run env (Eng.step env e) n).insts[0]? = some J
  fine : J.status ≠ .failed
  force : J.force = false
  calm : ∀ m, m < n → panics env (Eng.run env (Eng.step env e) m) = false

/-- The task of the error handler became ready, that is, it was given to the work queue. -/
def ExecutedEh (tr : List Ev) (t : TaskId) : Prop := ∃ o, .taskStatus o ⟨true, t⟩ .ready ∈ tr

/-- The task of the error handler has an instance with this status. -/
def HasStatusEh (I : Inst) (t : TaskId) (s : TaskStatus) : Prop := ∃ ob ∈ I.objs, ob.task = ⟨true, t⟩ ∧ ob.status = s

/-- The task of the error handler is finished. -/
def FinishedEh (I : Inst) (t : TaskId) : Prop := HasStatusEh I t .done ∨ HasStatusEh I t .failed ∨ HasStatusEh I t .skipped

/-- The evaluations of a task of the error handler. -/
def evalsEh (tr : List Ev) (t : TaskId) : List Ev := tr.filter fun ev => match ev with | .evalAct _ u => u = ⟨true, t⟩ | _ => false

end Flow.Spec
