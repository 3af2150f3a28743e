import Verif.Model.Engine

/-
The run of a flow by an action, `action.go` lines 178-446: the loop that performs the steps, the step limit, and the
results delivered to the caller. One micro step of a run is one micro step of the engine or one action of the loop.

Not modelled: resolution of the flow (lines 223-268), tracing, logging and the recording calls (see `Verif.Model.Tracker`).
`SetResultHandler` (line 347) happens after `Start`; activities are only called later, so the handler is set whenever an
activity replies.
-/

namespace Flow

/-- `Instance.GetReturnData`, instance.go lines 168-191: the first call fixes the return data. A declared output without
default value has the value `null`. -/
def Inst.fixReturnData (I : Inst) : Inst :=
  match I.returnData with
  | some _ => I
  | none =>
    if I.defn.hasOutputs then
      { I with returnData := some (I.defn.outputs.foldl (fun m p =>
          let m1 := match I.attrs.get? p.1 with
            | some v => m.set p.1 v
            | none => m
          match p.2 with
          | .null => m1
          | v => m1.set p.1 v) []) }
    else I

/-- What the caller asked for: the step limit (`maxStepCount`, an int), `RunOptions.ReturnID` and `RunOptions.InitStepId`
(lines 190-203); `exceptionAssert` is the result of `applyAssertionInterceptor(inst, AssertionException)` (line 422). -/
structure RunCfg where
  limit : Int
  returnId : Bool := false
  initStep : Int := 0
  exceptionAssert : Bool := false

/-- Who observes the run: a state recorder, whose presence makes the action call `GetFlowState` before the start (line 309,
ind_instance.go line 144), and a listener for flow events, for which every status change calls `GetReturnData`
(flowevents.go line 94). -/
structure Observers where
  recorder : Bool := false
  listener : Bool := false

/-- Arguments of `ResultHandler.HandleResult`. -/
structure Result where
  data : Option (AMap String Val)
  err : Option Err

/-- `err` of lines 379 and 397. -/
def limitErr (id : String) (limit : Int) : Err :=
  .plain ("flow instance [" ++ id ++ "] failed due to max step count [" ++ toString limit ++
    "] reached. Increase step count by setting [FLOGO_MAX_STEP_COUNT] to higher value")

/-- State of the goroutine started in line 358. `results` are the calls of `HandleResult` by the action itself, newest
first; the calls caused by activities are `eng.replies`. `done` says that the goroutine has ended and `handler.Done()` was
called (line 363). -/
structure Run where
  eng : Eng
  count : Int
  hasWork : Bool := true
  results : List Result := []
  done : Bool := false

namespace Run

/-- `NewIndependentInstance`, `GetFlowState` for a recorder, `Start`: lines 250-252, 308-311 and 332-334. The status event
of `SetStatus(FlowStatusActive)` (ind_instance.go line 243) is posted before tasks are entered; entering start tasks changes
neither attributes nor return data. Simplification: status events of subflows are left out. -/
def startEng (env : Env) (ob : Observers) (id uri : String) (d : Def) (inputs : AMap String Val) : Eng :=
  let e0 := Eng.new id uri d
  let e1 := if ob.recorder then e0.modI 0 Inst.fixReturnData else e0
  let e2 := Eng.startInstance env e1 0 inputs
  if ob.listener then e2.modI 0 Inst.fixReturnData else e2

/-- Lines 338-345 and 365-372 for the engine state `e`. -/
def start (c : RunCfg) (e : Eng) : Run :=
  { eng := e
    count := if 0 < c.initStep then c.initStep - 1 else 0
    results := if c.returnId then [⟨some [("id", .str e.id)], none⟩] else [] }

/-- The condition of the loop, line 387. -/
def goesOn (c : RunCfg) (r : Run) (s : FlowStatus) : Bool :=
  r.hasWork && (s == .notStarted || s == .active) && decide (r.count < c.limit)

/-- After the loop: lines 396-430. -/
def report (c : RunCfg) (r : Run) : Run :=
  match r.eng.insts[0]? with
  | none => { r with done := true }
  | some I =>
    if r.count = c.limit ∧ I.status ≠ .completed then
      { r with results := ⟨none, some (limitErr r.eng.id c.limit)⟩ :: r.results, done := true }
    else
      match I.status with
      | .completed =>
        let J := I.fixReturnData
        { r with eng := r.eng.modI 0 (fun _ => { J with attrs := J.attrs.update (J.returnData.getD []) })
                 results := ⟨J.returnData, J.returnError⟩ :: r.results
                 done := true }
      | .failed =>
        let rs := if c.exceptionAssert then ⟨none, none⟩ :: r.results else r.results
        { r with results := ⟨none, I.returnError⟩ :: rs, done := true }
      | _ => { r with done := true }

/-- One micro step: the functions called by `DoStep` continue, or the loop makes its next turn (lines 387-395), or the
result is reported. -/
def step (env : Env) (c : RunCfg) (r : Run) : Run :=
  if r.done then r
  else
    match r.eng.stack with
    | _ :: _ => { r with eng := r.eng.step env }
    | [] =>
      match r.eng.insts[0]? with
      | none => r.report c
      | some I =>
        if r.goesOn c I.status then
          { r with eng := r.eng.step env
                   count := r.count + 1
                   hasWork := I.status == .active && !r.eng.queue.isEmpty }
        else r.report c

/-- The states of a run. -/
def run (env : Env) (c : RunCfg) (r : Run) : Nat → Run
  | 0 => r
  | n + 1 => step env c (run env c r n)

end Run

/-- State of `DoStepInLoop`, ind_instance.go lines 338-385, which replaces the loop if concurrent task execution is enabled
(action.go lines 375-385). Modelled for the branch without goroutines (lines 368-379); an execution in which every
goroutine finishes before the next item is taken behaves in the same way. `over` says that the limit was reported. -/
structure Loop where
  eng : Eng
  count : Int := 0
  over : Bool := false

/-- One micro step of `DoStepInLoop`. While the flow is active and the queue is empty the loop spins. -/
def Loop.step (env : Env) (limit : Int) (l : Loop) : Loop :=
  if l.over then l
  else
    match l.eng.stack with
    | _ :: _ => { l with eng := l.eng.step env }
    | [] =>
      match l.eng.insts[0]? with
      | none => l
      | some I =>
        if I.status = .active ∧ l.eng.queue ≠ [] then
          if limit < l.count then { l with over := true }
          else { l with eng := l.eng.step env, count := l.count + 1 }
        else l

/-- The states of the loop. -/
def Loop.run (env : Env) (limit : Int) (l : Loop) : Nat → Loop
  | 0 => l
  | n + 1 => Loop.step env limit (Loop.run env limit l n)

end Flow
