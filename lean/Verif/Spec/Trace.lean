import Verif.Model.Engine

/-
Reading an execution trace, independently of how the engine keeps its state. A trace is a list of events, newest first.
-/

namespace Flow.Spec

open Flow

/-- The last decision about a link that the trace records. -/
def lastLink : List Ev → LinkId → LinkStatus
  | [], _ => .unset
  | .linkStatus l s :: tr, k => if l = k then s else lastLink tr k
  | .linkRemoved l :: tr, k => if l = k then .unset else lastLink tr k
  | _ :: tr, k => lastLink tr k

/-- The status of a link that exists after these events. -/
def liveLink : List Ev → LinkId → Option LinkStatus
  | [], _ => none
  | .linkAdded l :: tr, k => if l = k then some .unset else liveLink tr k
  | .linkStatus l s :: tr, k => if l = k then some s else liveLink tr k
  | .linkRemoved l :: tr, k => if l = k then none else liveLink tr k
  | _ :: tr, k => liveLink tr k

/-- The object of a task that is in the task table after these events. -/
def liveTask : List Ev → TaskId → Option Nat
  | [], _ => none
  | .taskAdded o t :: tr, k => if t = k then some o else liveTask tr k
  | .taskRemoved t :: tr, k => if t = k then none else liveTask tr k
  | .cleared :: _, _ => none
  | _ :: tr, k => liveTask tr k

/-- The last status of a task object. -/
def lastStatus : List Ev → Nat → TaskStatus
  | [], _ => .notStarted
  | .taskAdded o _ :: tr, p => if o = p then .notStarted else lastStatus tr p
  | .taskStatus o _ s :: tr, p => if o = p then s else lastStatus tr p
  | _ :: tr, p => lastStatus tr p

/-- The last status of the flow instance. -/
def lastFlow : List Ev → FlowStatus
  | [] => .notStarted
  | .flowStatus s :: _ => s
  | _ :: tr => lastFlow tr

/-- Changes of the status of a task or of the flow, which are announced to listeners. -/
def isStatus : Ev → Bool
  | .taskStatus .. => true
  | .flowStatus _ => true
  | _ => false

/-- After these events every link of the list has been decided. -/
def AllDecided (tr : List Ev) (ls : List LinkDef) : Prop := ∀ l ∈ ls, lastLink tr l.id ≠ .unset

/-- After these events some link of the list is followed. -/
def SomeFollowed (tr : List Ev) (ls : List LinkDef) : Prop := ∃ l ∈ ls, lastLink tr l.id = .true

/-- Is the event `ev`, which happens after the events `pre`, in order for a flow with definition `d`?
* A task becomes ready only when all its incoming links have been decided and, unless it has none, one is followed.
* A task is skipped only when it has incoming links, all are decided and none is followed.
* A task becomes ready or is skipped only after it has been entered; it waits, is done or fails only after it has become
  ready; it never becomes not started again.
* A flow never becomes not started again.
* An activity runs only for a task that has become ready before.
* A link is decided by its source task only: followed after the source is done or, for an error link, has failed; not
  followed after the source is done or has failed; skipped after the source was skipped. -/
def EvOK (d : Def) (ev : Ev) (pre : List Ev) : Prop :=
  match ev with
  | .taskStatus o t .ready =>
    (AllDecided pre (d.fromLinks t) ∧ (d.fromLinks t = [] ∨ SomeFollowed pre (d.fromLinks t))) ∧
      .taskStatus o t .entered ∈ pre
  | .taskStatus o t .skipped =>
    (d.fromLinks t ≠ [] ∧ AllDecided pre (d.fromLinks t) ∧ ¬ SomeFollowed pre (d.fromLinks t)) ∧
      .taskStatus o t .entered ∈ pre
  | .taskStatus o t .waiting => .taskStatus o t .ready ∈ pre
  | .taskStatus o t .done => .taskStatus o t .ready ∈ pre
  | .taskStatus o t .failed => .taskStatus o t .ready ∈ pre
  | .taskStatus _ _ .notStarted => False
  | .evalAct o t => .taskStatus o t .ready ∈ pre
  | .postAct o t => .taskStatus o t .ready ∈ pre
  | .linkStatus k s => ∃ (t : TaskRef) (o : Nat) (l : LinkDef), l ∈ d.toLinks t ∧ l.id = k ∧
    match s with
    | .unset => False
    | .true => if l.type = .error then .taskStatus o t .failed ∈ pre else .taskStatus o t .done ∈ pre
    | .false => .taskStatus o t .failed ∈ pre ∨ .taskStatus o t .done ∈ pre
    | .skipped => .taskStatus o t .skipped ∈ pre
  | .ehStart => .ehStart ∉ pre
  | .flowStatus s => s ≠ .notStarted
  | _ => True

/-- Every event of the trace is in order. -/
def TraceOK (d : Def) : List Ev → Prop
  | [] => True
  | ev :: pre => EvOK d ev pre ∧ TraceOK d pre

theorem TraceOK.at {d : Def} {tr post pre : List Ev} {ev : Ev} (h : TraceOK d tr) (hs : tr = post ++ ev :: pre) :
    EvOK d ev pre := by
  subst hs
  induction post with
  | nil => exact h.1
  | cons x xs ih => exact ih h.2

/-- The log of the work queue (newest first) is in order: identifiers of added items increase, only items that were
added before are removed, and none is removed twice. -/
def QueueOK : List QEv → Prop
  | [] => True
  | .added w :: pre => (∀ v, .added v ∈ pre → v.id < w.id) ∧ QueueOK pre
  | .removed w :: pre => .added w ∈ pre ∧ .removed w ∉ pre ∧ QueueOK pre

end Flow.Spec
