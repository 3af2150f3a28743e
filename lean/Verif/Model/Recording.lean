import Verif.Model.Run
import Verif.Model.Events

/-
When the state of a run is recorded: `RecordStart`, `RecordState` and `RecordDone` in `action.go` lines 307-440 and
`RecordState` in `instance/ind_instance.go` lines 642-644 and 705-707; what happens there if the instance has no recorder
(`instance/recorder.go` lines 22-41). What a record of the state contains is in `Verif.Model.Snapshot`.
-/

namespace Flow
namespace Eng

/-! ### `RecordState` within a step -/

/-- `HandleGlobalError`, ind_instance.go lines 666-719: the state in which line 706 calls `RecordState`, if it does. -/
def midGlobal (e : Eng) (i : Nat) : Option Eng :=
  match e.insts[i]? with
  | none => none
  | some I =>
    if I.handling then none
    else
      match I.defn.eh with
      | some _ => none
      | none => if i = 0 then none else some ((e.modI i (fun J => { J with handling := true })).modI i (fun J => J.setFlowStatus .failed))

/-- `handleTaskError`, ind_instance.go lines 605-663: the state in which line 643 or 706 calls `RecordState`. -/
def midTaskError (e : Eng) (i o : Nat) (t : TaskRef) (err : Err) : Option Eng :=
  match e.insts[i]? with
  | none => none
  | some I =>
    match I.errorTask o t with
    | (_, some _) => none
    | (I1, none) =>
      if I.handling then
        if i = 0 then none else some ((e.modI i (fun _ => I1)).modI i (fun J => J.setFlowStatus .failed))
      else ((e.modI i (fun _ => I1)).appendErrorData i t.id err).midGlobal i

/-- `handleTaskDone`, ind_instance.go lines 486-499. -/
def midTaskDone (env : Env) (e : Eng) (i o : Nat) (t : TaskRef) : Option Eng :=
  match e.insts[i]? with
  | none => none
  | some I =>
    match I.doneTask env.prio (env.link e i) o t with
    | (_, .ok _) => none
    | (I1, .error m) =>
      ((e.modI i (fun _ => I1)).appendErrorData i t.id
        (.plain ("error handling task done transition for task [" ++ e.taskName i t ++ "] in flow [" ++ e.topName ++ "] : " ++ m))).midGlobal i

/-- `execTask`, ind_instance.go lines 401-467, after the behavior has answered. The flag says that `RecordState` is called by the
recovery from a panic, lines 403-422. -/
def midResult (env : Env) (e : Eng) (i o : Nat) (t : TaskRef) (name : String) : EvalOut → Option (Eng × Bool)
  | .err err => (e.midTaskError i o t err).map (·, false)
  | .res .done => (midTaskDone env e i o t).map (·, false)
  | .res .skip => (midTaskDone env e i o t).map (·, false)
  | .res _ => none
  | .panic m =>
    match e.insts[i]? with
    | none => none
    | some I =>
      if I.handling then none
      else
        ((e.appendErrorData i t.id (.eval name "unhandled" ("unhandled Error executing task '" ++ t.id ++ "' : " ++ m))).midGlobal i).map (·, true)

/-- `execTask`, ind_instance.go lines 401-468. -/
def midExec (env : Env) (e : Eng) (i o : Nat) : Option (Eng × Bool) :=
  match e.obj? i o with
  | none => none
  | some ob =>
    match e.taskDef? i ob.task with
    | none => none
    | some td =>
      match ob.status with
      | .waiting => midResult env (postKind env e i o td).1 i o ob.task td.name (postKind env e i o td).2
      | .skipped => none
      | .done => none
      | _ => midResult env (evalKind env e i o td).1 i o ob.task td.name (evalKind env e i o td).2

/-- `DoStep`, ind_instance.go lines 298-336. -/
def midDoStep (env : Env) (e : Eng) : Option (Eng × Bool) :=
  match e.insts[0]? with
  | none => none
  | some I =>
    if I.status = .active then
      match e.queue[env.pick e % e.queue.length]? with
      | none => none
      | some w =>
        midExec env { e with stepID := e.stepID + 1, queue := e.queue.eraseIdx (env.pick e % e.queue.length)
                             qlog := .removed w :: e.qlog } w.inst w.obj
    else none

/-- The state in which `RecordState` is called within the next micro step, if it is. -/
def midStep (env : Env) (e : Eng) : Option (Eng × Bool) :=
  match e.stack with
  | [] => e.midDoStep env
  | _ :: _ => none

/-- The next micro step of an instance whose recorder is nil, as `ondemand/action.go` line 208 creates it: `RecordState` panics
(recorder.go line 23). `execTask` recovers from it and does nothing, since the failed flow counts as handling an error
(ind_instance.go lines 416-421), so the step ends there; a panic within that recovery ends the process, reported by `true`. -/
def stepUntaped (env : Env) (e : Eng) : Eng × Bool :=
  match e.midStep env with
  | none => (e.step env, false)
  | some m => m

end Eng

/-! ### The records of a run -/

/-- `state.FlowState` as `GetFlowState` fills it, ind_instance.go lines 143-159, and the field set in action.go line 310. Names of
user, application and host and the times are left out. -/
structure FlowRec where
  id : String
  name : String
  inputs : AMap String Val
  outputs : Option (AMap String Val)
  status : String
  originalId : String := ""

/-- The calls of the recorder. -/
inductive RecEv
  | start (f : FlowRec)
  | state (e : Eng)
  | done (f : FlowRec)

/-- `GetFlowState`, ind_instance.go lines 143-159. The list is empty only if there is no instance. -/
def Eng.flowRec (e : Eng) (inputs : AMap String Val) (originalId : String) : List FlowRec :=
  match e.insts[0]? with
  | none => []
  | some I =>
    [{ id := e.id, name := I.defn.name, inputs := inputs, outputs := I.fixReturnData.returnData
       status := I.status.eventName, originalId := originalId }]

/-- A run and the calls of its recorder, oldest first. -/
structure Taped where
  run : Run
  inputs : AMap String Val
  log : List RecEv

namespace Taped

/-- action.go lines 307-312 for the instance in state `e0`, and lines 348-356 for the instance in state `e`, after `Start` or
`UpdateAttrs`. -/
def start (c : RunCfg) (e0 e : Eng) (inputs : AMap String Val) (originalId : String) : Taped :=
  { run := Run.start c e
    inputs := inputs
    log := (e0.flowRec inputs originalId).map .start ++ if 0 < c.initStep then [] else [.state e] }

/-- Lines 396-403: the limit is reported, and the goroutine ends. -/
def limitReached (c : RunCfg) (r : Run) : Bool :=
  match r.eng.insts[0]? with
  | none => false
  | some I => decide (r.count = c.limit ∧ I.status ≠ .completed)

/-- Lines 396-442. -/
def report (c : RunCfg) (s : Taped) : Taped :=
  { s with run := s.run.report c
           log := s.log ++ if limitReached c s.run then [] else ((s.run.report c).eng.flowRec s.inputs "").map .done }

/-- `RecordState` after a step that has ended, lines 390-394. -/
def closed (e : Eng) : List RecEv :=
  match e.stack with
  | [] => [.state e]
  | _ :: _ => []

/-- One micro step of the run with the calls of the recorder. -/
def step (env : Env) (c : RunCfg) (s : Taped) : Taped :=
  if s.run.done then s
  else
    match s.run.eng.stack with
    | _ :: _ => { s with run := s.run.step env c, log := s.log ++ closed (s.run.eng.step env) }
    | [] =>
      match s.run.eng.insts[0]? with
      | none => s.report c
      | some I =>
        if s.run.goesOn c I.status then
          { s with run := s.run.step env c
                   log := s.log ++ (((s.run.eng.midStep env).toList.map fun m => .state m.1) ++ closed (s.run.eng.step env)) }
        else s.report c

/-- The states of a recorded run. -/
def after (env : Env) (c : RunCfg) (s : Taped) : Nat → Taped
  | 0 => s
  | n + 1 => step env c (after env c s n)

end Taped
end Flow
