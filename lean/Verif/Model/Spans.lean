import Verif.Model.Run

/-
Tracing: the spans that are started and finished while a flow is executed, if tracing is enabled (`trace.Enabled()`). The
engine never reads them, except for two attributes of the flow (ind_instance.go lines 183-200) that are not modelled.
Not modelled: tags (see SpanTags and TaskIds), failures of the tracer itself and instances that are restored from a snapshot (their contexts are nil).
-/

namespace Flow

/-- What the engine does with the tracing contexts of task instances (`TaskInst.traceContext`, taskinst.go line 75) and flow
instances (`Instance.tracingCtx`, instance.go line 41); task instance `o` of flow instance `i`. -/
inductive SpanOp
  | startTask (i o : Nat)
  | endTask (i o : Nat) (err : Option Err)
  | dropTask (i o : Nat)
  | startFlow (j i o : Nat)
  | endFlow (j : Nat) (err : Option Err)

/-- Whose execution a span describes. -/
inductive SpanOwner
  | task (i o : Nat)
  | flow (j : Nat)
deriving DecidableEq

/-- What the tracer sees: `StartTrace` with the parent context, which returns the new context `s`, and `FinishTrace`. -/
inductive SpanEv
  | started (s : Nat) (owner : SpanOwner) (parent : Option Nat)
  | finished (s : Nat) (err : Option Err)

/-- The contexts and the calls of the tracer, newest first. -/
structure SpanSt where
  log : List SpanEv := []
  task : Nat → Nat → Option Nat := fun _ _ => none
  flow : Nat → Option Nat := fun _ => none
  next : Nat := 0

namespace SpanSt

/-- Assignment to the context of a task instance. -/
def setTask (f : Nat → Nat → Option Nat) (i o : Nat) (s : Option Nat) : Nat → Nat → Option Nat :=
  fun j p => if j = i ∧ p = o then s else f j p

/-- Assignment to the context of a flow instance. -/
def setFlow (f : Nat → Option Nat) (j : Nat) (s : Option Nat) : Nat → Option Nat := fun k => if k = j then s else f k

/-- Starting a span stores the new context: taskinst.go lines 326-328, ind_instance.go lines 119-122. Finishing one calls the
tracer if there is a context, for instance ind_instance.go lines 488-490 and 519-521. -/
def apply (st : SpanSt) : SpanOp → SpanSt
  | .startTask i o =>
    { st with log := .started st.next (.task i o) (st.flow i) :: st.log
              task := setTask st.task i o (some st.next)
              next := st.next + 1 }
  | .endTask i o err =>
    match st.task i o with
    | none => st
    | some s => { st with log := .finished s err :: st.log }
  | .dropTask i o => { st with task := setTask st.task i o none }
  | .startFlow j i o =>
    { st with log := .started st.next (.flow j) (st.task i o) :: st.log
              flow := setFlow st.flow j (some st.next)
              next := st.next + 1 }
  | .endFlow j err =>
    match st.flow j with
    | none => st
    | some s => { st with log := .finished s err :: st.log }

def applyAll (st : SpanSt) (ops : List SpanOp) : SpanSt := ops.foldl apply st

/-- The span of the top-level instance, action.go lines 318-327. Simplification: the context of the trigger is nil. -/
def init : SpanSt := { log := [.started 0 (.flow 0) none], flow := setFlow (fun _ => none) 0 (some 0), next := 1 }

end SpanSt

namespace Eng

/-- `EvalActivity` starts a span (taskinst.go lines 325-328), whatever happens afterwards; the subflow activity starts the
span of the new flow instance (ind_instance.go lines 119-122). -/
def spanOnce (env : Env) (e : Eng) (i o : Nat) : List SpanOp :=
  .startTask i o :: (List.range' e.insts.length ((evalOnce env e i o).1.insts.length - e.insts.length)).map (fun j => .startFlow j i o)

/-- `retryEval` followed by `evalActivity`, retry.go lines 56-73 and taskbehavior.go lines 116-152: the span of every attempt
but the last is finished (line 140). -/
def spanRetry (env : Env) : Nat → Eng → Nat → Nat → List SpanOp
  | 0, e, i, o => spanOnce env (e.setRetry i o 0) i o
  | n + 1, e, i, o =>
    spanOnce env (e.setRetry i o (n + 1)) i o ++
      match evalOnce env (e.setRetry i o (n + 1)) i o with
      | (e1, .error err) => if err.retriable then .endTask i o (some err) :: spanRetry env n e1 i o else []
      | _ => []

/-- `evalActivity`, taskbehavior.go lines 116-152. -/
def spanActivity (env : Env) (e : Eng) (i o : Nat) : List SpanOp :=
  spanOnce env e i o ++
    match evalOnce env e i o with
    | (_, .ok _) => []
    | (e1, .error err) =>
      if err.retriable && e1.hasRetry i o then
        match getRetry env e1 i o with
        | (_, .error _) => []
        | (e2, .ok c) => if 0 < c then .endTask i o (some err) :: spanRetry env (c.toNat - 1) e2 i o else []
      else []

/-- `IteratorTaskBehavior.Eval`, iteratorbehavior.go lines 22-151: the activity is evaluated if there is a next value. -/
def spanIter (env : Env) (e : Eng) (i o : Nat) (td : TaskDef) : List SpanOp :=
  match getIter env e i o td with
  | .error _ => []
  | .ok none => []
  | .ok (some it) =>
    if it.next.2 = false then []
    else
    match it.next.1.value with
    | none => []
    | some v =>
      spanActivity env (e.modI i (fun I => I.modO o (fun x =>
        { x with iter := some it.next.1, iteration := some (it.next.1.key, v, it.next.1.current) }))) i o

/-- `Eval` of the behavior of the task. -/
def spanEval (env : Env) (e : Eng) (i o : Nat) (td : TaskDef) : List SpanOp :=
  match td.kind with
  | .basic => spanActivity env e i o
  | .iterator => spanIter env e i o td
  | .doWhile => spanActivity env (e.dwInit i o) i o

/-- `PostEval` of the behavior of the task; only that of plain tasks retries (taskbehavior.go lines 155-196). -/
def spanPost (env : Env) (e : Eng) (i o : Nat) (td : TaskDef) : List SpanOp :=
  match td.kind with
  | .basic =>
    match postOnce env e i o with
    | (_, .ok _) => []
    | (e1, .error err) =>
      if err.isAct && e1.hasRetry i o then
        match getRetry env e1 i o with
        | (_, .error _) => []
        | (e2, .ok c) => if 0 < c then .endTask i o (some err) :: spanRetry env (c.toNat - 1) e2 i o else []
      else []
  | _ => []

/-- Completion of a flow instance, ind_instance.go lines 516-521. -/
def spanComplete (i : Nat) : List SpanOp := if i = 0 then [] else [.endFlow i none]

/-- `HandleGlobalError`, ind_instance.go lines 666-719: the span of a subflow is finished if it has no error handler (line
702), but not if it fails while it handles an error (line 670). -/
def spanGlobal (e : Eng) (i : Nat) (err : Err) : List SpanOp :=
  match e.insts[i]? with
  | none => []
  | some I =>
    if I.handling then []
    else
      match I.defn.eh with
      | some _ => []
      | none => if i = 0 then [] else [.endFlow i (some err)]

/-- `handleTaskError`, ind_instance.go lines 605-663. -/
def spanTaskError (e : Eng) (i o : Nat) (t : TaskRef) (err : Err) : List SpanOp :=
  .endTask i o (some err) ::
    match e.insts[i]? with
    | none => []
    | some I =>
      match I.errorTask o t with
      | (_, some _) => []
      | (_, none) =>
        if I.handling then (if i = 0 then [] else [.endFlow i (some err)])
        else e.spanGlobal i err

/-- The tail of `handleTaskDone`, ind_instance.go lines 501-521. -/
def spanFinish (e : Eng) (i : Nat) (notify : Bool) : List SpanOp :=
  match e.insts[i]? with
  | none => []
  | some I => if (notify && I.allDone) || I.force then spanComplete i else []

/-- `handleTaskDone` for a task that is not skipped, ind_instance.go lines 486-499: the span is finished without error, also
if the evaluation of a link failed. -/
def spanTaskDone (env : Env) (e : Eng) (i o : Nat) (t : TaskRef) : List SpanOp :=
  .endTask i o none ::
    match e.insts[i]? with
    | none => []
    | some I =>
      match I.doneTask env.prio (env.link e i) o t with
      | (_, .error m) =>
        e.spanGlobal i (.plain ("error handling task done transition for task [" ++ e.taskName i t ++ "] in flow [" ++ e.topName ++ "] : " ++ m))
      | (I1, .ok _) => (e.modI i (fun _ => I1)).spanFinish i ((I.defn.toLinks t).length = 0)

/-- `handleTaskDone` for a skipped task, ind_instance.go lines 480-485. -/
def spanSkipped (e : Eng) (i o : Nat) : List SpanOp :=
  match e.insts[i]? with
  | none => []
  | some I =>
    match I.objs[o]? with
    | none => []
    | some ob => (e.modI i (fun _ => (I.skipTask o ob.task).1)).spanFinish i ((I.defn.toLinks ob.task).length = 0)

/-- `execTask` after the evaluation, ind_instance.go lines 434-467, and the recovery of a panic, lines 403-424. -/
def spanResult (env : Env) (e : Eng) (i o : Nat) (t : TaskRef) : EvalOut → List SpanOp
  | .err err => e.spanTaskError i o t err
  | .res .done => e.spanTaskDone env i o t
  | .res .skip => e.spanTaskDone env i o t
  | .res .wait => []
  | .res .fail => [.endTask i o ((e.obj? i o).bind (·.returnError))]
  | .res .again => [.endTask i o none, .dropTask i o]
  | .panic m =>
    .endTask i o (some (.plain ("unhandled Error executing task '" ++ t.id ++ "' : " ++ m))) ::
      e.spanGlobal i (.plain ("unhandled Error executing task '" ++ t.id ++ "' : " ++ m))

/-- `execTask`, ind_instance.go lines 401-468. -/
def spanExec (env : Env) (e : Eng) (i o : Nat) : List SpanOp :=
  match e.obj? i o with
  | none => []
  | some ob =>
    match e.taskDef? i ob.task with
    | none => []
    | some td =>
      match ob.status with
      | .waiting => spanPost env e i o td ++ spanResult env (postKind env e i o td).1 i o ob.task (postKind env e i o td).2
      | .skipped => []
      | .done => []
      | _ => spanEval env e i o td ++ spanResult env (evalKind env e i o td).1 i o ob.task (evalKind env e i o td).2

/-- One iteration of the loop of `enterTasks`, ind_instance.go lines 728-748. -/
def spanEnter (e : Eng) (x : TaskEntry) : List SpanOp :=
  match e.insts[e.cur]? with
  | none => []
  | some I =>
    match (I.enterTask x.task).2.2 with
    | .skip => (e.modI e.cur (fun _ => (I.enterTask x.task).1)).spanSkipped e.cur (I.enterTask x.task).2.1
    | _ => []

/-- `DoStep`, ind_instance.go lines 298-336. -/
def spanDoStep (env : Env) (e : Eng) : List SpanOp :=
  match e.insts[0]? with
  | none => []
  | some I =>
    if I.status = .active then
      match e.queue[env.pick e % e.queue.length]? with
      | none => []
      | some w =>
        spanExec env { e with stepID := e.stepID + 1, queue := e.queue.eraseIdx (env.pick e % e.queue.length)
                              qlog := .removed w :: e.qlog } w.inst w.obj
    else []

/-- One micro step. -/
def spanStep (env : Env) (e : Eng) : List SpanOp :=
  match e.stack with
  | [] => e.spanDoStep env
  | .enter (x :: _) :: _ => e.spanEnter x
  | _ => []

end Eng

/-- A run with tracing. -/
structure SpanRun where
  eng : Eng
  st : SpanSt

namespace SpanRun

def step (env : Env) (s : SpanRun) : SpanRun := { eng := s.eng.step env, st := s.st.applyAll (s.eng.spanStep env) }

def run (env : Env) (s : SpanRun) : Nat → SpanRun
  | 0 => s
  | n + 1 => step env (run env s n)

/-- The flow has been started: entering start tasks touches no span. -/
def init (env : Env) (id uri : String) (d : Def) (inputs : AMap String Val) : SpanRun :=
  { eng := Eng.init env id uri d inputs, st := .init }

end SpanRun

namespace Run

/-- The ends of the span of the top-level instance, action.go lines 396-423. -/
def spanReport (c : RunCfg) (r : Run) : List (Option Err) :=
  match r.eng.insts[0]? with
  | none => []
  | some I =>
    if r.count = c.limit ∧ I.status ≠ .completed then [some (limitErr r.eng.id c.limit)]
    else
      match I.status with
      | .completed => [none]
      | .failed => [I.returnError]
      | _ => []

/-- Those of one micro step of the action. -/
def spanStep (c : RunCfg) (r : Run) : List (Option Err) :=
  if r.done then []
  else
    match r.eng.stack with
    | _ :: _ => []
    | [] =>
      match r.eng.insts[0]? with
      | none => r.spanReport c
      | some I => if r.goesOn c I.status then [] else r.spanReport c

/-- The ends of the span of the top-level instance in the first `n` steps, oldest first. -/
def spanEnds (env : Env) (c : RunCfg) (r : Run) : Nat → List (Option Err)
  | 0 => []
  | n + 1 => spanEnds env c r n ++ (run env c r n).spanStep c

end Run

end Flow
