import Verif.Model.Basic

/-
The flow manager, support/manager.go lines 24-71, used by any number of goroutines: a state machine whose steps are
those of `GetFlow` between which other goroutines can run.
-/

namespace Flow.Mgr

/-- A definition, identified by its address. -/
abbrev DefPtr := Nat

/-- Where a goroutine is in `GetFlow(uri)`. -/
inductive Pc
  | idle
  /-- before `fm.rfMu.Lock()`, line 46 -/
  | waiting (uri : String)
  /-- lock taken, before the lookup, line 53 -/
  | locked (uri : String)
  /-- in `flowProvider.GetFlow` or `materializeFlow`, lines 57-66 -/
  | loading (uri : String)
  /-- result determined and lock released, lines 59, 64, 70; `none`: an error, or a panic of the provider -/
  | returning (uri : String) (r : Option DefPtr)

/-- Observable events. -/
inductive Ev
  | call (g : Nat) (uri : String)
  | load (g : Nat) (uri : String)
  | loaded (g : Nat) (uri : String) (r : Option DefPtr)
  | ret (g : Nat) (uri : String) (r : Option DefPtr)
  deriving DecidableEq

/-- The manager, the goroutines, and the events so far, latest first. -/
structure State where
  lock : Option Nat := none
  flows : AMap String DefPtr := []
  pc : Nat → Pc := fun _ => .idle
  trace : List Ev := []

/-- The goroutine `g` moves to `p`. -/
def State.goto (s : State) (g : Nat) (p : Pc) : State := { s with pc := fun h => if h = g then p else s.pc h }

def State.emit (s : State) (ev : Ev) : State := { s with trace := ev :: s.trace }

/-- One step of a goroutine. -/
inductive Label
  | call (g : Nat) (uri : String)
  | lock (g : Nat)
  | lookup (g : Nat)
  /-- the provider returns: a definition, or an error or panic -/
  | provide (g : Nat) (r : Option DefPtr)
  | ret (g : Nat)

/-- A new call, if the goroutine is not in one. -/
def stepCall (s : State) (g : Nat) (uri : String) : Option State :=
  match s.pc g with
  | .idle => some ((s.goto g (.waiting uri)).emit (.call g uri))
  | _ => none

/-- `Lock`, line 46, possible only if the lock is free. -/
def stepLock (s : State) (g : Nat) : Option State :=
  match s.pc g, s.lock with
  | .waiting uri, none => some { s.goto g (.locked uri) with lock := some g }
  | _, _ => none

/-- The lookup in the map, lines 49-55: found: return it; otherwise ask the provider. -/
def stepLookup (s : State) (g : Nat) : Option State :=
  match s.pc g with
  | .locked uri =>
    match s.flows.get? uri with
    | some d => some { s.goto g (.returning uri (some d)) with lock := none }
    | none => some ((s.goto g (.loading uri)).emit (.load g uri))
  | _ => none

/-- `fm.remoteFlows[uri] = flow`, line 67, reached only without an error. -/
def store (flows : AMap String DefPtr) (uri : String) : Option DefPtr → AMap String DefPtr
  | some d => flows.set uri d
  | none => flows

/-- The provider and `materializeFlow` have returned, lines 57-70: store the definition, or return the error. -/
def stepProvide (s : State) (g : Nat) (r : Option DefPtr) : Option State :=
  match s.pc g with
  | .loading uri =>
    some { (s.goto g (.returning uri r)).emit (.loaded g uri r) with
            lock := none
            flows := store s.flows uri r }
  | _ => none

/-- The caller has the result. -/
def stepRet (s : State) (g : Nat) : Option State :=
  match s.pc g with
  | .returning uri r => some ((s.goto g .idle).emit (.ret g uri r))
  | _ => none

def step (s : State) : Label → Option State
  | .call g uri => stepCall s g uri
  | .lock g => stepLock s g
  | .lookup g => stepLookup s g
  | .provide g r => stepProvide s g r
  | .ret g => stepRet s g

/-- The states that some interleaving reaches. -/
inductive Reach : State → Prop
  | init : Reach {}
  | step {s s' : State} {l : Label} (h : Reach s) (hs : step s l = some s') : Reach s'

end Flow.Mgr
