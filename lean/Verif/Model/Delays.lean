import Verif.Model.Engine

/-
Waiting: where `time.Sleep` is called while a flow is executed. The engine never reads the time; only the order of attempts and
pauses is modelled, not their real duration.
-/

namespace Flow

/-- Why the engine pauses: before an activity is evaluated once more after an error (retry.go lines 64-67), or after a round of a
loop (iteratorbehavior.go lines 134-139, dowhilebehavior.go lines 88-92). -/
inductive PauseFor
  | retry
  | loop
deriving DecidableEq

/-- An evaluation of the activity of task instance `o` of flow instance `i`, and a pause of `ms` milliseconds for it. -/
inductive TimeEv
  | attempt (i o : Nat)
  | pause (i o : Nat) (why : PauseFor) (ms : Int)
deriving DecidableEq

/-- The settings: `LoopConfig().Delay()` of a task, and `RetryOnErrConfig().Interval(scope)`, which may be an expression
(definition/definition.go lines 310-324). Simplification: an interval that cannot be determined is one of the errors of
`Env.retryCount`, since `getRetryData` treats both alike (retry.go lines 33-42). -/
structure Timing where
  delay : Def → TaskRef → Int
  interval : Eng → Nat → Nat → Int

/-- `if ms > 0 { time.Sleep(…) }`. -/
def pauses (i o : Nat) (why : PauseFor) (ms : Int) : List TimeEv := if 0 < ms then [.pause i o why ms] else []

namespace Eng

/-- `RetryData.Interval` of the task instance, retry.go lines 24-53: stored with the first retry (`itv`), else determined now.
The remaining retries, stored in the same `RetryData`, are `Obj.retry`. -/
def intervalNow (T : Timing) (itv : Option Int) (e : Eng) (i o : Nat) : Int :=
  match itv with
  | some ms => ms
  | none => T.interval e i o

/-- `retryEval` followed by `evalActivity`, retry.go lines 56-73; the pause before the first of these attempts is not included. -/
def timeRetry (env : Env) (ms : Int) : Nat → Eng → Nat → Nat → List TimeEv
  | 0, _, i, o => [.attempt i o]
  | n + 1, e, i, o =>
    .attempt i o ::
      match evalOnce env (e.setRetry i o (n + 1)) i o with
      | (e1, .error err) => if err.retriable then pauses i o .retry ms ++ timeRetry env ms n e1 i o else []
      | _ => []

/-- `evalActivity`, taskbehavior.go lines 116-152. -/
def timeActivity (env : Env) (T : Timing) (itv : Option Int) (e : Eng) (i o : Nat) : List TimeEv :=
  .attempt i o ::
    match evalOnce env e i o with
    | (_, .ok _) => []
    | (e1, .error err) =>
      if err.retriable && e1.hasRetry i o then
        match getRetry env e1 i o with
        | (_, .error _) => []
        | (e2, .ok c) =>
          if 0 < c then pauses i o .retry (intervalNow T itv e1 i o) ++ timeRetry env (intervalNow T itv e1 i o) (c.toNat - 1) e2 i o else []
      else []

/-- The interval that is stored afterwards. -/
def intervalActivity (env : Env) (T : Timing) (itv : Option Int) (e : Eng) (i o : Nat) : Option Int :=
  match evalOnce env e i o with
  | (_, .ok _) => itv
  | (e1, .error err) =>
    if err.retriable && e1.hasRetry i o then
      match getRetry env e1 i o with
      | (_, .error _) => itv
      | (_, .ok _) => some (intervalNow T itv e1 i o)
    else itv

/-- The delay of the task. -/
def delayOf (T : Timing) (e : Eng) (i : Nat) (t : TaskRef) : Int :=
  match e.insts[i]? with
  | none => 0
  | some I => T.delay I.defn t

/-- The state in which a round of an iterator evaluates its activity, iteratorbehavior.go lines 114-123; `none`: there is no
further round. -/
def iterRound (env : Env) (e : Eng) (i o : Nat) (td : TaskDef) : Option Eng :=
  match getIter env e i o td with
  | .error _ => none
  | .ok none => none
  | .ok (some it) =>
    if it.next.2 = false then none
    else
    match it.next.1.value with
    | none => none
    | some v => some (e.modI i (fun I => I.modO o (fun x =>
        { x with iter := some it.next.1, iteration := some (it.next.1.key, v, it.next.1.current) })))

/-- `IteratorTaskBehavior.Eval`, iteratorbehavior.go lines 22-151: the pause comes after every round that did not fail. -/
def timeIter (env : Env) (T : Timing) (itv : Option Int) (e : Eng) (i o : Nat) (t : TaskRef) (td : TaskDef) : List TimeEv :=
  match iterRound env e i o td with
  | none => []
  | some e1 =>
    timeActivity env T itv e1 i o ++
      match (evalActivity env e1 i o).2 with
      | .error _ => []
      | .ok _ => pauses i o .loop (e.delayOf T i t)

/-- `evaluateCondition`, dowhilebehavior.go lines 81-99: the pause comes only if the task is repeated. -/
def timeCond (T : Timing) (e : Eng) (i o : Nat) (t : TaskRef) : EvalOut → List TimeEv
  | .res .again => pauses i o .loop (e.delayOf T i t)
  | _ => []

/-- `Eval` of the behavior of the task. -/
def timeEval (env : Env) (T : Timing) (itv : Option Int) (e : Eng) (i o : Nat) (t : TaskRef) (td : TaskDef) : List TimeEv :=
  match td.kind with
  | .basic => timeActivity env T itv e i o
  | .iterator => timeIter env T itv e i o t td
  | .doWhile => timeActivity env T itv (e.dwInit i o) i o ++ timeCond T e i o t (evalDoWhile env e i o td).2

/-- The interval that is stored after `Eval`. -/
def intervalEval (env : Env) (T : Timing) (itv : Option Int) (e : Eng) (i o : Nat) (td : TaskDef) : Option Int :=
  match td.kind with
  | .basic => intervalActivity env T itv e i o
  | .iterator =>
    match iterRound env e i o td with
    | none => itv
    | some e1 => intervalActivity env T itv e1 i o
  | .doWhile => intervalActivity env T itv (e.dwInit i o) i o

/-- `PostEval` of the behavior of the task: taskbehavior.go lines 155-196, dowhilebehavior.go lines 54-69. -/
def timePost (env : Env) (T : Timing) (itv : Option Int) (e : Eng) (i o : Nat) (t : TaskRef) (td : TaskDef) : List TimeEv :=
  match td.kind with
  | .basic =>
    match postOnce env e i o with
    | (_, .ok _) => []
    | (e1, .error err) =>
      if err.isAct && e1.hasRetry i o then
        match getRetry env e1 i o with
        | (_, .error _) => []
        | (e2, .ok c) =>
          if 0 < c then pauses i o .retry (intervalNow T itv e1 i o) ++ timeRetry env (intervalNow T itv e1 i o) (c.toNat - 1) e2 i o else []
      else []
  | .iterator => []
  | .doWhile => timeCond T e i o t (postDoWhile env e i o td).2

/-- The interval that is stored after `PostEval`. -/
def intervalPost (env : Env) (T : Timing) (itv : Option Int) (e : Eng) (i o : Nat) (td : TaskDef) : Option Int :=
  match td.kind with
  | .basic =>
    match postOnce env e i o with
    | (_, .ok _) => itv
    | (e1, .error err) =>
      if err.isAct && e1.hasRetry i o then
        match getRetry env e1 i o with
        | (_, .error _) => itv
        | (_, .ok _) => some (intervalNow T itv e1 i o)
      else itv
  | _ => itv

end Eng

/-- A run with its pauses, oldest first, and the intervals stored for task instances. -/
structure Timed where
  eng : Eng
  itv : Nat → Nat → Option Int := fun _ _ => none
  log : List TimeEv := []

namespace Timed

/-- `execTask` evaluates task instance `o` of flow instance `i`, ind_instance.go lines 401-432; what follows does not pause. -/
def exec (env : Env) (T : Timing) (itv : Option Int) (e : Eng) (i o : Nat) : List TimeEv × Option Int :=
  match e.obj? i o with
  | none => ([], itv)
  | some ob =>
    match e.taskDef? i ob.task with
    | none => ([], itv)
    | some td =>
      match ob.status with
      | .waiting => (e.timePost env T itv i o ob.task td, e.intervalPost env T itv i o td)
      | .skipped => ([], itv)
      | .done => ([], itv)
      | _ => (e.timeEval env T itv i o ob.task td, e.intervalEval env T itv i o td)

/-- The work item that `DoStep` takes next, and the state in which it is executed, ind_instance.go lines 298-316. -/
def popped (env : Env) (e : Eng) : Option (Nat × Nat × Eng) :=
  match e.stack with
  | _ :: _ => none
  | [] =>
    match e.insts[0]? with
    | none => none
    | some I =>
      if I.status = .active then
        match e.queue[env.pick e % e.queue.length]? with
        | none => none
        | some w =>
          some (w.inst, w.obj, { e with stepID := e.stepID + 1, queue := e.queue.eraseIdx (env.pick e % e.queue.length)
                                        qlog := .removed w :: e.qlog })
      else none

/-- One micro step. -/
def step (env : Env) (T : Timing) (s : Timed) : Timed :=
  match popped env s.eng with
  | none => { s with eng := s.eng.step env }
  | some (i, o, e) =>
    { eng := s.eng.step env
      itv := fun j p => if j = i ∧ p = o then (exec env T (s.itv i o) e i o).2 else s.itv j p
      log := s.log ++ (exec env T (s.itv i o) e i o).1 }

def run (env : Env) (T : Timing) (s : Timed) : Nat → Timed
  | 0 => s
  | n + 1 => step env T (run env T s n)

def init (env : Env) (id uri : String) (d : Def) (inputs : AMap String Val) : Timed := { eng := Eng.init env id uri d inputs }

end Timed

end Flow
