import Verif.Model.Concurrent

/-
A whole run with concurrent task execution: the goroutine of `FlowAction.Run` (action.go lines 374-385 and 412-438) around
`DoStepInLoop` (instance/ind_instance.go lines 338-385), beside the goroutines of `Model/Concurrent`.

Simplifications: the run does not report its identifier first; only the kind of a result is modelled; the item that is taken when the
limit is exceeded stays in the queue (nothing takes it any more); the assertions of unit tests, the tracing and the state recorder
are left out; the status is read once for the result.
-/

namespace Flow.Conc

/-- Where the goroutine that runs the loop is: in the loop, after the loop ended with the error of the limit (line 350), after it
ended normally, or at its end. -/
inductive Phase
  | loop
  | over
  | after
  | ended
  deriving DecidableEq

/-- A result given to the caller: the return data, the error of the flow, or the error of the limit. -/
inductive Told
  | data
  | error
  | limit
  deriving DecidableEq

/-- The machine of the goroutines, the loop with its counter `stepCount`, and the results, latest first. -/
structure RunSt where
  st : St
  phase : Phase := .loop
  count : Int := 0
  told : List Told := []

/-- One step of the run. -/
inductive RunLabel
  /-- the loop takes a work item, which the new goroutine `g` executes -/
  | take (g : Nat)
  /-- the loop takes a work item too many and ends with an error, line 349 -/
  | exceed
  /-- the loop finds that the flow is not active and ends, line 342 -/
  | leave
  /-- the result is reported, action.go lines 378-385 and 412-438 -/
  | report
  /-- the behavior of goroutine `g` returns -/
  | exec (g : Nat) (r : Res)
  /-- the next step of goroutine `g` -/
  | next (g : Nat)

/-- The results reported for the status, action.go lines 412-438. -/
def toldFor : FlowStatus → List Told
  | .completed => [.data]
  | .failed => [.error]
  | _ => []

/-- `DoStepInLoop` takes an item, lines 344-354. -/
def takeStep (limit : Int) (r : RunSt) (g : Nat) : Option RunSt :=
  if r.phase = .loop ∧ r.count ≤ limit then (pop r.st g).map (fun s => { r with st := s, count := r.count + 1 }) else none

/-- `DoStepInLoop` exceeds the limit, lines 344-350. -/
def exceedStep (limit : Int) (r : RunSt) : Option RunSt :=
  if r.phase = .loop ∧ limit < r.count ∧ r.st.inst.status = .active ∧ (r.st.gs 0).isEmpty ∧ r.st.queue ≠ [] then some { r with phase := .over }
  else none

/-- The end of `DoStepInLoop`, line 342. -/
def leaveStep (r : RunSt) : Option RunSt :=
  if r.phase = .loop ∧ (r.st.gs 0).isEmpty ∧ r.st.inst.status ≠ .active then some { r with phase := .after } else none

/-- action.go lines 378-385 and 412-438. -/
def reportStep (r : RunSt) : Option RunSt :=
  match r.phase with
  | .over =>
    some { r with phase := .ended, told := (if r.st.inst.status = .completed then [.data] else [.limit]) ++ r.told }
  | .after => some { r with phase := .ended, told := toldFor r.st.inst.status ++ r.told }
  | _ => none

def RunSt.step (prio : Bool) (limit : Int) (r : RunSt) : RunLabel → Option RunSt
  | .take g => takeStep limit r g
  | .exceed => exceedStep limit r
  | .leave => leaveStep r
  | .report => reportStep r
  | .exec g x => (Conc.exec prio r.st g x).map (fun s => { r with st := s })
  | .next g => (Conc.next r.st g).map (fun s => { r with st := s })

/-- Executing labels one after the other. -/
def RunSt.runs (prio : Bool) (limit : Int) : RunSt → List RunLabel → Option RunSt
  | r, [] => some r
  | r, l :: ls => (r.step prio limit l).bind (fun r' => r'.runs prio limit ls)

/-- A run of a new instance. -/
def RunSt.init (d : Def) (uri : String) : RunSt := { st := Conc.init d uri }

end Flow.Conc
