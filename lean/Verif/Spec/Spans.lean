import Verif.Model.Spans
import Verif.Spec.Trace
import Verif.Spec.Attempts

/-
Reading the calls of a tracer, independently of how the engine keeps its tracing contexts.
-/

namespace Flow.Spec

open Flow

/-- How often, and with which errors, a span was finished; newest first. -/
def finishes : List SpanEv → Nat → List (Option Err)
  | [], _ => []
  | .finished k err :: log, s => if k = s then err :: finishes log s else finishes log s
  | .started .. :: log, s => finishes log s

/-- The span was started for this task instance or flow instance. -/
def OwnedBy (log : List SpanEv) (s : Nat) (w : SpanOwner) : Prop := ∃ p, SpanEv.started s w p ∈ log

/-- The spans started for this task instance or flow instance, oldest first. -/
def spansOf : List SpanEv → SpanOwner → List Nat
  | [], _ => []
  | .started k v _ :: log, w => if v = w then spansOf log w ++ [k] else spansOf log w
  | .finished .. :: log, w => spansOf log w

/-- The error an attempt to evaluate an activity failed with. -/
def Attempt.error (a : Attempt) : Option Err :=
  match a.result with
  | .ok _ => none
  | .error err => some err

/-- The span is the one that was started last for the task instance. -/
def Newest (log : List SpanEv) (s i o : Nat) : Prop := OwnedBy log s (.task i o) ∧ ∀ k, OwnedBy log k (.task i o) → k ≤ s

/-- The task instance was not entered again after it had waited. -/
def NotReentered (tr : List Ev) (o : Nat) : Prop :=
  ∀ post pre t t', tr = post ++ .taskStatus o t .entered :: pre → .taskStatus o t' .waiting ∉ pre

/-- A reported change of the flow instance to this status. -/
def reports (st : FlowStatus) : Post → Bool
  | .flow s _ => s = st
  | .task .. => false

/-- How often the flow instance was completed. -/
def completions (I : Inst) : Nat := I.posted.countP (reports .completed)

/-- How often the flow instance has failed. -/
def failures (I : Inst) : Nat := I.posted.countP (reports .failed)

/-- How the span of an evaluation with this result is finished: not as long as the task waits, with the error of the
evaluation, or without error. -/
def spanEnd (t : TaskRef) : Eng.EvalOut → List (Option Err)
  | .res .wait => []
  | .err err => [some err]
  | .panic m => [some (.plain ("unhandled Error executing task '" ++ t.id ++ "' : " ++ m))]
  | _ => [none]

end Flow.Spec
