import Verif.Spec.Run
import Verif.Model.Cover

/-
Specification for C62-C64: coverage reports. From the model only the data types of reports and traces are used, and the runs.
-/

namespace Flow.Spec

/-- A state of a run with a coverage object. -/
def Recorded (env : Env) (s : CovRun) : Prop :=
  ∃ id uri d ins n, s = CovRun.run env (CovRun.init env id uri d ins) n

/-- The link became followed. -/
def linkFollowed : Ev → Option LinkId
  | .linkStatus l .true => some l
  | _ => none

/-- The task became completed or failed. -/
def taskFinished : Ev → Option TaskId
  | .taskStatus _ t .done => some t.id
  | .taskStatus _ t .failed => some t.id
  | _ => none

/-- The links that the flow instance followed, in order, with repetitions. -/
def followedLinks (I : Inst) : List LinkId := I.trace.reverse.filterMap linkFollowed

/-- The tasks of the flow instance that became completed or failed, in order, with repetitions. -/
def finishedTasks (I : Inst) : List TaskId := I.trace.reverse.filterMap taskFinished

/-- The link reported by an entry about flow instance `i`. -/
def reportedLink (i : Nat) : Cov → Option LinkId
  | .link j _ l _ => if j = i then some l.id else none
  | _ => none

/-- The task reported by an entry about flow instance `i`. -/
def activityOf (i : Nat) : Cov → Option TaskId
  | .activity j _ t _ => if j = i then some t else none
  | _ => none

/-- The calling instance and the name of the subflow reported by an entry. -/
def subOf : Cov → Option (Option Nat × String)
  | .subflow h _ _ s => some (some h, s)
  | _ => none

/-- The flow name of an entry is that of the instance that the entry is about. -/
def NamedAfter (e : Eng) : Cov → Prop
  | .activity j f _ _ => ∃ I : Inst, e.insts[j]? = some I ∧ I.defn.name = f
  | .link j f l _ => ∃ I : Inst, e.insts[j]? = some I ∧ I.defn.name = f ∧ (l ∈ I.defn.main.links ∨ ∃ g, I.defn.eh = some g ∧ l ∈ g.links)
  | .subflow j f _ _ => ∃ I : Inst, e.insts[j]? = some I ∧ I.defn.name = f

/-- All tasks of the definition are basic tasks (no loops). -/
def NoLoops (d : Def) : Prop := ∀ t td, d.task? t = some td → td.kind = .basic

/-- No task of the definition starts another flow. -/
def NoSubflows (d : Def) : Prop := ∀ t td, d.task? t = some td → ∀ uri, td.act ≠ .subflow uri

/-- The evaluation of the task ended: it is completed or failed. -/
def ends : Eng.EvalOut → Bool
  | .res .done => true
  | .res .skip => true
  | .err _ => true
  | _ => false

/-- In the first `n` steps after `e` exactly the evaluations of the tasks `l` of flow instance `i` ended, in this order. -/
inductive Ended (env : Env) (i : Nat) (e : Eng) : Nat → List TaskId → Prop
  | start : Ended env i e 0 []
  | ended {n l o t e' r} : Ended env i e n l → Evaluates env (Eng.run env e n) i o t e' r → ends r = true →
      Ended env i e (n + 1) (l ++ [t.id])
  | other {n l} : Ended env i e n l → (∀ o t e' r, Evaluates env (Eng.run env e n) i o t e' r → ends r = false) →
      Ended env i e (n + 1) l

/-- The flow instance has started its error handler or failed. -/
def Troubled (e : Eng) (i : Nat) : Prop :=
  ∃ I : Inst, e.insts[i]? = some I ∧ (.ehStart ∈ I.trace ∨ .flowStatus .failed ∈ I.trace)

/-- What the flag of an entry says about the link, or about the task if the entry is about the flow that was started
(instance 0): flagged entries are about links and tasks of the main flow, other entries are made after an error. -/
def FlagMeans (e : Eng) : Cov → Prop
  | .link j _ l true => ∃ I : Inst, e.insts[j]? = some I ∧ l ∈ I.defn.main.links
  | .link j _ _ false => Troubled e j
  | .activity j _ t true => j = 0 → ∃ I : Inst, e.insts[0]? = some I ∧ ∃ td ∈ I.defn.main.tasks, td.id = t
  | .activity _ _ _ false => Troubled e 0
  | .subflow _ _ _ _ => True

end Flow.Spec
