import Verif.Model.Setup

/- What it means that an application uses its own flows and settings. -/

namespace Flow.Spec.Setup
open Flow.Setup

/-- The recording mode that the settings of an application ask for; `none`: a mode that does not exist. -/
def asked (L : Lib) (s : RtSettings) : Option Mode :=
  match s.mode with
  | some m =>
    if L.lower m = "off" then some .off
    else if L.lower m = "full" then some .full
    else if L.lower m = "step" then some .step
    else if L.lower m = "snapshot" then some .snapshot
    else if L.lower m = "debugger" then some .debugger
    else none
  | none =>
    some (match L.fold s.stepMode, L.fold s.snapshotMode with
      | true, true => .full
      | true, false => .step
      | false, true => .snapshot
      | false, false => .off)

/-- The package `k` is set up for the application `a` with the mode `m`. -/
structure SetUp (p : Proc) (k : Pkg) (a : App) (m : Mode) : Prop where
  manager : (p.vars k).manager ≠ none
  recorder : (p.vars k).recorder = a.recorder
  mode : (p.vars k).mode = m

/-- The last entry for an identifier. -/
def lastFor (cs : List (String × Except Err Res)) (id : String) : Option Res :=
  match cs.reverse.find? (fun c => c.1 = id) with
  | some (_, .ok r) => some r
  | _ => none

/-- The entries before the first one that cannot be loaded. -/
def usable (cs : List (String × Except Err Res)) : List (String × Except Err Res) :=
  cs.takeWhile (fun c => match c.2 with | .ok _ => true | .error _ => false)

end Flow.Spec.Setup
