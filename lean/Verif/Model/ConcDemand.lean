import Verif.Model.ConcRun

/-
A run of the on-demand action with concurrent task execution: the goroutine of `FlowAction.Run` (ondemand/action.go lines 223-272)
around `DoStepInLoop`. It differs from the other action only in what it reports; the simplifications are those of ConcRun.
-/

namespace Flow.Conc

/-- ondemand/action.go lines 238-241 and 258-265: after the error of the limit the action goes on and looks at the status. -/
def demandReport (r : RunSt) : Option RunSt :=
  match r.phase with
  | .over => some { r with phase := .after, told := .limit :: r.told }
  | .after => some { r with phase := .ended, told := toldFor r.st.inst.status ++ r.told }
  | _ => none

/-- One step of a run of the on-demand action. -/
def RunSt.demand (prio : Bool) (limit : Int) (r : RunSt) : RunLabel → Option RunSt
  | .report => demandReport r
  | .take g => takeStep limit r g
  | .exceed => exceedStep limit r
  | .leave => leaveStep r
  | .exec g x => (Conc.exec prio r.st g x).map (fun s => { r with st := s })
  | .next g => (Conc.next r.st g).map (fun s => { r with st := s })

/-- Executing labels one after the other. -/
def RunSt.demands (prio : Bool) (limit : Int) : RunSt → List RunLabel → Option RunSt
  | r, [] => some r
  | r, l :: ls => (r.demand prio limit l).bind (fun r' => r'.demands prio limit ls)

end Flow.Conc
