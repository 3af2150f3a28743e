import Verif.Spec.Run

/-
Specification of retrying: a sequence of attempts to evaluate an activity.
-/

namespace Flow.Spec

open Flow

/-- One evaluation: the state before it, the state it leaves, and what it reports. -/
structure Attempt where
  before : Eng
  after : Eng
  result : Except Err Bool

/-- The attempt failed with an error that allows another attempt. -/
def Attempt.again (a : Attempt) : Prop := ∃ err, a.result = .error err ∧ err.retriable = true

/-- The attempt is an evaluation of the activity of task instance `o` of flow instance `i`. -/
def Attempt.real (env : Env) (i o : Nat) (a : Attempt) : Prop := Eng.evalOnce env a.before i o = (a.after, a.result)

/-- The number of activity calls of flow instance `i`. -/
def callCount (e : Eng) (i : Nat) : Nat := (calls e i).length

/-- The state without the numbers of retries that task instances have left. -/
def withoutRetries (e : Eng) : Eng :=
  { e with insts := e.insts.map (fun I => { I with objs := I.objs.map (fun x => { x with retry := none }) }) }

/-- Nothing happened, except that numbers of retries that are left may have changed. -/
def Unseen (e e' : Eng) : Prop := withoutRetries e' = withoutRetries e

/-- The attempts `a :: as` are consecutive evaluations, each but the last failed in a way that allows another attempt,
and there are at most `n` attempts after the first; if even the last one failed in this way, there are exactly `n`. -/
def Retried (env : Env) (i o : Nat) : Attempt → List Attempt → Nat → Prop
  | a, [], n => a.real env i o ∧ (a.again → n = 0)
  | a, b :: as, n => a.real env i o ∧ a.again ∧ Unseen a.after b.before ∧
      match n with
      | 0 => False
      | n + 1 => Retried env i o b as n

theorem Retried.real {env : Env} {i o : Nat} {a : Attempt} {as : List Attempt} {n : Nat} (h : Retried env i o a as n) :
    a.real env i o := by
  cases as with
  | nil => exact h.1
  | cons b bs => exact h.1

/-- The last of the attempts `a :: as`. -/
def lastAttempt : Attempt → List Attempt → Attempt
  | a, [] => a
  | _, b :: as => lastAttempt b as

/-- The number of retries the task instance has left: what is left from before, or else the configured count. -/
def retriesLeft (env : Env) (e : Eng) (i o : Nat) : Except Err Int :=
  match (e.obj? i o).bind (·.retry) with
  | some c => .ok c
  | none => env.retryCount e i o

/-- The number of retries a task instance may make, or why it cannot be determined. -/
def retriesOf (env : Env) (e : Eng) (i o : Nat) (td : TaskDef) : Except Err Nat :=
  if td.retry then (retriesLeft env e i o).map Int.toNat else .ok 0

/-- The attempts `a :: as` are those of an evaluation of the task instance that reports `res`: the outcome of the last attempt, or
that the number of retries cannot be determined. -/
inductive TriedAs (env : Env) (i o : Nat) (td : TaskDef) (a : Attempt) : List Attempt → Except Err Bool → Prop
  | all {as : List Attempt} {n : Nat} (hn : a.again → retriesOf env a.after i o td = .ok n) (h : Retried env i o a as n) :
      TriedAs env i o td a as (lastAttempt a as).result
  | none {err : Err} (h : a.real env i o) (hg : a.again) (hn : retriesOf env a.after i o td = .error err) : TriedAs env i o td a [] (.error err)

end Flow.Spec
