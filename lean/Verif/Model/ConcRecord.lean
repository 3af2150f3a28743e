import Verif.Model.ConcRun

/-
The state recorder of a run with concurrent task execution: action.go lines 307-312, 348-356, 374-385 and 440-442.

Simplifications: those of ConcRun; a new run (no `initStepId`) with a recording mode other than `off`; what a record contains is the state
of the instance, and for the end its status; snapshot and step of the same moment are one record.
-/

namespace Flow.Conc

/-- The calls of the recorder. -/
inductive TapeEv
  | start
  | state (s : St)
  | done (status : FlowStatus)

/-- A run and the calls of its recorder, latest first. -/
structure TapeSt where
  run : RunSt
  log : List TapeEv

inductive TapeLabel
  /-- a step of the run -/
  | run (l : RunLabel)
  /-- the record after `Start`, line 351 -/
  | first
  /-- the record of the end, line 441 -/
  | done

/-- `RecordStart` comes before `Start`, lines 311 and 334. -/
def TapeSt.init (d : Def) (uri : String) : TapeSt := { run := RunSt.init d uri, log := [.start] }

/-- The record of the start of the flow is made when `Start` has returned (goroutine 0) and before the loop is begun. -/
def firstStep (s : TapeSt) : Option TapeSt :=
  match s.log with
  | [.start] => if (s.run.st.gs 0).isEmpty then some { s with log := [.state s.run.st, .start] } else none
  | _ => none

/-- The steps of the loop come after the first record. -/
def mayRun : RunLabel → List TapeEv → Bool
  | .exec _ _, _ => true
  | .next _, _ => true
  | _, [.start] => false
  | _, _ => true

/-- Nothing is recorded by a step of the run (`DoStepInLoop`, ind_instance.go lines 338-385). -/
def runStep (prio : Bool) (limit : Int) (s : TapeSt) (l : RunLabel) : Option TapeSt :=
  if mayRun l s.log then (s.run.step prio limit l).map (fun r => { s with run := r }) else none

/-- Line 441, after the result was given; with the error of the limit the function has returned before (line 384). -/
def doneStep (s : TapeSt) : Option TapeSt :=
  match s.log with
  | .done _ :: _ => none
  | _ => if s.run.phase = .ended ∧ s.run.told ≠ [.limit] then some { s with log := .done s.run.st.inst.status :: s.log } else none

def TapeSt.step (prio : Bool) (limit : Int) (s : TapeSt) : TapeLabel → Option TapeSt
  | .run l => runStep prio limit s l
  | .first => firstStep s
  | .done => doneStep s

/-- Executing labels one after the other. -/
def TapeSt.steps (prio : Bool) (limit : Int) : TapeSt → List TapeLabel → Option TapeSt
  | s, [] => some s
  | s, l :: ls => (s.step prio limit l).bind (fun s' => s'.steps prio limit ls)

end Flow.Conc
