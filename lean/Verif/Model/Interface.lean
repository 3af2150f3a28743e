import Verif.Model.Basic

/-
The interface of a called flow as the activity that calls it determines it, `activity/subflow/activity.go` lines 61-84. The activity
object is shared by all instances of the calling flow, so that several goroutines may ask for its metadata at the same time.

One step is one access to shared memory by one goroutine. The metadata (`M`) is a value; `none` is a nil pointer. The field
`activityMd` itself never changes (it is set by `New`, line 39); what changes is its `IOMetadata`. Not modelled: the singleton version
of the activity (lines 63-66), whose metadata is constant.
-/

namespace Flow
namespace Iface

variable {M : Type}

/-- Where a goroutine is in `Metadata`. -/
inductive Pc (M : Type)
  | idle
  /-- about to load the flag, line 69 -/
  | load
  /-- about to take the mutex, line 70 -/
  | lock
  /-- about to read the flag again, line 72 -/
  | test
  /-- about to call `GetFlowIOMetadata`, line 73 -/
  | look
  /-- about to store the metadata, line 77 -/
  | write (m : Option M)
  /-- about to set the flag, line 79 -/
  | store
  /-- about to release the mutex, line 71 -/
  | unlock
  /-- `Metadata` has returned; about to read `IOMetadata`, line 94 -/
  | read

/-- Shared memory and the goroutines. `known` is the metadata of the definition that the URI currently denotes, `none` if
`GetFlowIOMetadata` fails; `lookups` are the results of `GetFlowIOMetadata` and `answers` what callers have read, both newest first. -/
structure St (M : Type) where
  updated : Bool := false
  md : Option M := none
  holder : Option Nat := none
  pc : Nat → Pc M := fun _ => .idle
  known : Option (Option M) := none
  lookups : List (Option (Option M)) := []
  answers : List (Nat × Option M) := []

/-- A goroutine calls `Metadata` or goes on, or the definition behind the URI changes. -/
inductive Label (M : Type)
  | go (g : Nat)
  | define (k : Option (Option M))

def St.at (s : St M) (g : Nat) (p : Pc M) : Nat → Pc M := fun h => if h = g then p else s.pc h

/-- `GetFlowIOMetadata`, instance/util.go lines 340-351, and what follows it, lines 73-77. -/
def St.looked (s : St M) (g : Nat) : St M :=
  match s.known with
  | none => { s with pc := s.at g .unlock, lookups := none :: s.lookups }
  | some m => { s with pc := s.at g (.write m), lookups := some m :: s.lookups }

/-- One step; `none` if the goroutine has to wait for the mutex. -/
def step (s : St M) : Label M → Option (St M)
  | .define k => some { s with known := k }
  | .go g =>
    match s.pc g with
    | .idle => some { s with pc := s.at g .load }
    | .load => some { s with pc := s.at g (if s.updated then .read else .lock) }
    | .lock =>
      match s.holder with
      | some _ => none
      | none => some { s with pc := s.at g .test, holder := some g }
    | .test => some { s with pc := s.at g (if s.updated then .unlock else .look) }
    | .look => some (s.looked g)
    | .write m => some { s with pc := s.at g .store, md := m }
    | .store => some { s with pc := s.at g .unlock, updated := true }
    | .unlock => some { s with pc := s.at g .read, holder := none }
    | .read => some { s with pc := s.at g .idle, answers := (g, s.md) :: s.answers }

/-- An execution from the creation of the activity. -/
inductive Reach : St M → Prop
  | init : Reach {}
  | step {s s' : St M} (l : Label M) : Reach s → step s l = some s' → Reach s'

/-- A continuation of an execution. -/
inductive Cont : St M → St M → Prop
  | refl (s : St M) : Cont s s
  | step {s t u : St M} (l : Label M) : Cont s t → step t l = some u → Cont s u

end Iface
end Flow
