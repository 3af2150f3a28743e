import Verif.Model.Instance

/-
The running flow: the independent instance with its subflows, the work queue and the control stack.
-/

namespace Flow

/-- `WorkItem`, ind_instance.go lines 817-836: identifier and task instance (instance index, object index). -/
structure WorkItem where
  id : Nat
  inst : Nat
  obj : Nat
  deriving DecidableEq, Repr

/-- Continuation frames of the mutual recursion `enterTasks` / `handleTaskDone` (ind_instance.go lines 471-574 and
721-751): entries still to be entered, and the `releaseTask` at line 573 (or 629) that follows them. -/
inductive Frame
  | enter (es : List TaskEntry)
  | release (t : TaskRef)
  deriving DecidableEq, Repr

/-- Queue events: `WorkItemAdded`, `WorkItemRemoved` of the change tracker. -/
inductive QEv
  | added (w : WorkItem)
  | removed (w : WorkItem)
  deriving DecidableEq, Repr

/-- `IndependentInstance`, ind_instance.go lines 22-42. `insts` holds every flow instance ever created, index 0 is the
top-level one; `subflows` is the Go map from subflow id to instance. `cur` and `stack` are the control state of the
functions being executed; `stack = []` means that control is outside `DoStep`. `replies` are the calls of the result
handler made by `Reply`. `qlog` is a ghost field (newest first). -/
structure Eng where
  id : String
  insts : List Inst
  queue : List WorkItem := []
  wiCounter : Nat := 0
  stepID : Nat := 0
  subflowCtr : Nat := 0
  subflows : AMap Nat Nat := []
  cur : Nat := 0
  stack : List Frame := []
  replies : List (AMap String Val × Option Err) := []
  qlog : List QEv := []

/-- Result of an activity's `Eval` or `PostEval`: done, not done, an error or a panic. -/
inductive ActRes
  | done
  | wait
  | err (e : Err)
  | panic (msg : String)

/-- Everything an activity can do through its context during one call: set its outputs (`none`: untouched), set
attributes of its flow instance, call `Return` or `Reply` of its host, and finish. -/
structure ActOut where
  outputs : Option (Option (AMap String Val)) := none
  sets : AMap String Val := []
  ret : Option (Option (AMap String Val) × Option Err) := none
  reply : Option (AMap String Val × Option Err) := none
  res : ActRes := .done

/-- Outcome of a do-while condition. A result that is not a boolean makes the type assertion at dowhilebehavior.go
line 87 panic. -/
inductive CondOut
  | ok (b : Bool)
  | err (e : Err)
  | panic (msg : String)

/-- Types of task interceptors, support/interceptor.go lines 10-16, as far as they matter for execution. -/
inductive IcpType
  | mockActivity | mockException | other
  deriving DecidableEq, Repr

/-- `TaskInterceptor`, support/interceptor.go lines 72-82. `assertErr`: some assertion is executed and has a type
other than primitive (util.go lines 156-161), which is the only effect of assertions on the execution. -/
structure TaskIcp where
  skip : Bool := false
  inputs : AMap String Val := []
  outputs : AMap String Val := []
  skipExecution : Bool := false
  type : IcpType := .other
  assertErr : Bool := false

/-- The environment: everything that is not part of the engine. All functions of the state may depend on the whole
state and thereby on the whole history, so an environment stands for an arbitrary behaviour of activities,
expressions, mappers and schemas. `pick` chooses the work item taken from the queue; it stands for the queue
discipline of `core/support.SyncQueue`, which is not part of the repository. -/
structure Env where
  /-- `support.GetDefinition`: error, not found, or a definition. -/
  defs : String → Except Err (Option Def)
  /-- `FLOGO_TASK_PRIORITIZE_EXPR_LINK` -/
  prio : Bool := false
  pick : Eng → Nat
  act : Eng → Nat → Nat → ActOut
  post : Eng → Nat → Nat → ActOut
  /-- link expression: state, instance, link -/
  link : Eng → Nat → LinkDef → ExprOut
  /-- input mapper: none if there is none -/
  inMap : Eng → Nat → Nat → Option (Except String (AMap String Val))
  /-- output mapper: none if there is none; values and error -/
  outMap : Eng → Nat → Nat → Option (AMap String Val × Option String)
  /-- does the settings mapper succeed? -/
  settingsOk : Eng → Nat → Nat → Bool
  inSchema : Eng → Nat → Nat → Option Err
  outSchema : Eng → Nat → Nat → Option Err
  retryCount : Eng → Nat → Nat → Except Err Int
  iterOn : Eng → Nat → Nat → Except Err Val
  cond : Eng → Nat → Nat → CondOut
  toInt : String → Option Int
  order : AMap String Val → List String
  /-- interceptor by key -/
  icp : String → Option TaskIcp
  coerceIn : TaskRef → String → Val → Val
  coerceOut : TaskRef → String → Val → Except Err Val
  appName : Val
  appVersion : Val

namespace Eng

/-- Update of a flow instance through its pointer. -/
def modI (e : Eng) (i : Nat) (f : Inst → Inst) : Eng := { e with insts := e.insts.modify i f }

/-- Dereferencing a task instance pointer. -/
def obj? (e : Eng) (i o : Nat) : Option Obj :=
  match e.insts[i]? with
  | none => none
  | some I => I.objs[o]?

/-- Definition of the task of a task instance; used for its name and configuration. -/
def taskDef? (e : Eng) (i : Nat) (t : TaskRef) : Option TaskDef :=
  match e.insts[i]? with
  | none => none
  | some I => I.defn.task? t

/-- `taskInst.Name()`. -/
def taskName (e : Eng) (i : Nat) (t : TaskRef) : String :=
  match e.taskDef? i t with
  | none => ""
  | some td => td.name

/-- `inst.flowDef.Name()` of the top-level instance. -/
def topName (e : Eng) : String :=
  match e.insts[0]? with
  | none => ""
  | some I => I.defn.name

/-- `Instance.ID`, instance.go lines 60-66. -/
def instID (e : Eng) (I : Inst) : String :=
  if 0 < I.subflowId then e.id ++ "-" ++ toString I.subflowId else e.id

/-- `scheduleEval`, ind_instance.go lines 387-398. The new item is put at the end of the list; see `Env.pick`. -/
def schedule (e : Eng) (i o : Nat) : Eng :=
  { e with wiCounter := e.wiCounter + 1
           queue := e.queue ++ [⟨e.wiCounter + 1, i, o⟩]
           qlog := .added ⟨e.wiCounter + 1, i, o⟩ :: e.qlog }

/-! ### Starting instances -/

/-- Name and identifier of the flow instance that contains the host of a subflow, ind_instance.go lines 201-217. -/
def parentOf (e : Eng) (I : Inst) : Option (String × String) :=
  match I.host with
  | none => none
  | some (hi, _) => (e.insts[hi]?).map (fun H => (H.defn.name, e.instID H))

/-- Attributes set by `startInstance`, ind_instance.go lines 177-243: flow context, declared inputs, start attributes.
Tracing is off, so the trace attributes are empty. -/
def startAttrs (env : Env) (e : Eng) (I : Inst) (parent : Option (String × String)) (start : AMap String Val) :
    AMap String Val :=
  let ctx : AMap String Val :=
    [("_fctx.FlowName", .str I.defn.name), ("_fctx.FlowId", .str (e.instID I)), ("_fctx.AppName", env.appName),
     ("_fctx.AppVersion", env.appVersion), ("_fctx.TraceId", .str ""), ("_fctx.SpanId", .str ""),
     ("_fctx.ParentFlowName", .str ((parent.map (·.1)).getD "")), ("_fctx.ParentFlowId", .str ((parent.map (·.2)).getD ""))]
  ((I.attrs.update ctx).update I.defn.inputs).update start

/-- Entering the start tasks of a fresh instance: the loop of `enterTasks`, ind_instance.go lines 728-748, where no
task has incoming links and therefore none is skipped. Stops at the first failing settings mapper. -/
def enterStart (env : Env) : Eng → Nat → List TaskEntry → Eng
  | e, _, [] => e
  | e, i, x :: xs =>
    match e.insts[i]? with
    | none => e
    | some I =>
      let o := (I.enterTask x.task).2.1
      let e1 := e.modI i (fun _ => (I.enterTask x.task).1)
      match (I.enterTask x.task).2.2 with
      | .eval => if env.settingsOk e1 i o then enterStart env (e1.schedule i o) i xs else e1
      | _ => enterStart env e1 i xs

/-- `startInstance`, ind_instance.go lines 175-259. -/
def startInstance (env : Env) (e : Eng) (i : Nat) (start : AMap String Val) : Eng :=
  match e.insts[i]? with
  | none => e
  | some I =>
    let I1 := { I with attrs := e.startAttrs env I (e.parentOf I) start }.setFlowStatus .active
    enterStart env (e.modI i (fun _ => I1)) i (Inst.startEntries I.defn false)

/-- `newEmbeddedInstance`, ind_instance.go lines 99-133, for the task object `o` of instance `i`. The new instance gets
the next index. -/
def newEmbedded (e : Eng) (i o : Nat) (uri : String) (d : Def) : Eng :=
  { e with subflowCtr := e.subflowCtr + 1
           insts := e.insts ++ [{ defn := d, uri := uri, subflowId := e.subflowCtr + 1, host := some (i, o) }]
           subflows := e.subflows.set (e.subflowCtr + 1) e.insts.length }

/-- The inputs the subflow activity passes on, activity/subflow/activity.go lines 91-99: exactly the declared inputs of the flow,
nil for those the task has no input for. Simplification: the metadata cached by the activity (lines 61-84) is that of the current
definition. -/
def subflowInputs (d : Def) (inputs : AMap String Val) : AMap String Val :=
  d.inputs.map (fun p => (p.1, (inputs.get? p.1).getD .null))

/-- `StartSubFlow`, util.go lines 353-381, with the inputs the activity passes on. -/
def startSubFlow (env : Env) (e : Eng) (i o : Nat) (uri : String) (inputs : AMap String Val) : Eng × Except Err Bool :=
  match env.defs uri with
  | .error err => (e, .error err)
  | .ok none => (e, .error (.plain ("unable to resolve subflow: " ++ uri)))
  | .ok (some d) => (startInstance env (e.newEmbedded i o uri d) e.insts.length (subflowInputs d inputs), .ok false)

/-! ### Evaluating an activity -/

/-- Interceptor key used for inputs and skip, util.go line 91. -/
def icpIn (env : Env) (ob : Obj) : Option TaskIcp := env.icp ob.task.id

/-- Interceptor key used for outputs, mocks and assertions, util.go lines 134, 213, 230. -/
def icpOut (env : Env) (e : Eng) (i : Nat) (ob : Obj) : Option TaskIcp :=
  match e.insts[i]? with
  | none => none
  | some I => env.icp (I.defn.name ++ "-" ++ ob.task.id)

/-- `applyInputInterceptor`, util.go lines 84-126: overrides inputs; `false` if the task is not to be evaluated. -/
def inputInterceptor (env : Env) (e : Eng) (i o : Nat) (ob : Obj) : Eng × Bool :=
  match icpIn env ob with
  | none => (e, true)
  | some tc =>
    (e.modI i (fun I => I.modO o (fun x =>
      { x with inputs := tc.inputs.foldl (fun m p => m.set p.1 (env.coerceIn ob.task p.1 p.2)) x.inputs })), !tc.skip)

/-- Effects of an activity on its context: `SetOutput`, `SetValue`, `Return` (instance.go lines 154-158) and `Reply`
(lines 147-152; only the top-level instance has a result handler). -/
def applyActOut (e : Eng) (i o : Nat) (a : ActOut) : Eng :=
  let e1 := e.modI i (fun I =>
    let I1 := { I with attrs := I.attrs.update a.sets }
    let I2 := match a.outputs with
      | none => I1
      | some m => I1.modO o (fun x => { x with outputs := m })
    match a.ret with
    | none => I2
    | some (d, err) => { I2 with force := true, returnData := d, returnError := err })
  match a.reply with
  | none => e1
  | some (d, err) =>
    if i = 0 then
      { e1.modI 0 (fun I => { I with returnData := some d }) with replies := (d, err) :: e1.replies }
    else e1

/-- `actCfg.Activity.Eval(ctx)`, taskinst.go line 369: a user activity, or the subflow activity
(activity/subflow/activity.go lines 87-109, not detached) with the inputs of the task. Result: done or not, or error; a
panic is an `ActivityEvalError` (taskinst.go lines 304-316). -/
def callActivity (env : Env) (e : Eng) (i o : Nat) (ob : Obj) (td : TaskDef) : Eng × Except Err Bool × Bool :=
  let e0 := e.modI i (fun I => { I with trace := .evalAct o ob.task :: I.trace })
  match td.act with
  | .subflow uri =>
    let ins := (e0.obj? i o).map (·.inputs)
    ((startSubFlow env e0 i o uri (ins.getD [])).1, (startSubFlow env e0 i o uri (ins.getD [])).2, false)
  | _ =>
    let a := env.act e0 i o
    let e1 := e0.applyActOut i o a
    match a.res with
    | .done => (e1, .ok true, false)
    | .wait => (e1, .ok false, false)
    | .err err => (e1, .error (err.setActivity td.name), false)
    | .panic m => (e1, .error (.eval td.name "unhandled" m), true)

/-- `handleAccumulation`, taskinst.go lines 581-600. Simplification: `coerce.ToArray` accepts exactly arrays. -/
def accumulate (e : Eng) (i o : Nat) (t : TaskId) : Eng × Option Err :=
  match e.insts[i]? with
  | none => (e, none)
  | some I =>
    let out : Val := .obj (((I.objs[o]?).bind (·.outputs)).getD [])
    match I.attrs.get? ("_A." ++ t) with
    | none => (e.modI i (fun J => J.setValue ("_A." ++ t) (.arr [out])), none)
    | some (.arr l) => (e.modI i (fun J => J.setValue ("_A." ++ t) (.arr (l ++ [out]))), none)
    | some _ => (e, some (.plain "accumulate outputs must be array"))

/-- `applyOutputMapper`, util.go lines 306-338, and its wrapper taskinst.go lines 449-460: the values are stored even if
the mapper reports an error. -/
def outputMapper (env : Env) (e : Eng) (i o : Nat) (name : String) : Eng × Option Err :=
  match env.outMap e i o with
  | none => (e, none)
  | some (vals, err) =>
    (e.modI i (fun I => { I with attrs := I.attrs.update vals }), err.map (fun m => .eval name "mapper" m))

/-- `applyOutputInterceptor`, util.go lines 222-274. A mocked exception without a string message panics (line 260); the
panic becomes an `ActivityEvalError`. Absent data is the empty struct, modelled as the empty object. Simplification: if
the coercion of one output fails, none is stored (Go stores those visited before). -/
def outputInterceptor (env : Env) (e : Eng) (i o : Nat) (ob : Obj) (td : TaskDef) : Eng × Option Err :=
  match icpOut env e i ob with
  | none => (e, none)
  | some tc =>
    if tc.outputs.length = 0 then (e, none)
    else match tc.type with
      | .other => (e, none)
      | .mockException =>
        match tc.outputs.get? "message" with
        | some (.str m) =>
          let data := match tc.outputs.get? "data" with
            | none => .obj []
            | some .null => .obj []
            | some v => v
          (e, some (.act m "" data ob.task.id false))
        | _ => (e, some (.eval td.name "unhandled" "interface conversion"))
      | .mockActivity =>
        match tc.outputs.mapM (fun p => (env.coerceOut ob.task p.1 p.2).map (fun v => (p.1, v))) with
        | .error err => (e, some err)
        | .ok m => (e.modI i (fun I => I.modO o (fun x =>
            { x with outputs := some ((x.outputs.getD []).update m) })), none)

/-- `if err := …; err != nil { return … }`: continue unless there was an error. -/
def andThen (r : Eng × Option Err) (k : Eng → Eng × Option Err) : Eng × Option Err :=
  match r with
  | (e, some err) => (e, some err)
  | (e, none) => k e

/-- Accumulation and output mapping of `EvalActivity`, taskinst.go lines 423-439. -/
def storeOutputs (env : Env) (e : Eng) (i o : Nat) (t : TaskId) (td : TaskDef) : Eng × Option Err :=
  if td.accumulates then
    andThen (e.accumulate i o t) (fun e' => if td.appliesOutput then outputMapper env e' i o td.name else (e', none))
  else outputMapper env e i o td.name

/-- `applyAssertionInterceptor(ti, support.AssertionActivity)`, util.go lines 128-178: its only effect on the execution is
the error for an unsupported assertion type. -/
def assertion (env : Env) (e : Eng) (i : Nat) (ob : Obj) : Eng × Option Err :=
  match icpOut env e i ob with
  | some tc => if tc.assertErr then (e, some (.plain "Invalid Assertion Mode")) else (e, none)
  | none => (e, none)

/-- The result `(true, nil)` or `(_, err)` of `EvalActivity`. -/
def doneOrErr : Eng × Option Err → Eng × Except Err Bool
  | (e, some err) => (e, .error err)
  | (e, none) => (e, .ok true)

/-- The part of `EvalActivity` after the activity is done, taskinst.go lines 401-446. -/
def afterDone (env : Env) (e : Eng) (i o : Nat) (ob : Obj) (td : TaskDef) : Eng × Except Err Bool :=
  match env.outSchema e i o with
  | some err => (e, .error err)
  | none =>
    doneOrErr (andThen (outputInterceptor env e i o ob td) (fun e1 =>
      andThen (storeOutputs env e1 i o ob.task.id td) (fun e2 => assertion env e2 i ob)))

/-- Error data stored when an activity fails, taskinst.go lines 379-384. -/
def evalErrorData (e : Eng) (i : Nat) (t : TaskId) (err : Err) : Eng :=
  e.modI i (fun I =>
    let I1 := if I.handling then I else I.setValue "_E" (errorObj t err)
    I1.setValue ("_E." ++ t) (errorObj t err))

/-- The input mapper, util.go lines 46-82 and taskinst.go lines 330-339. -/
def applyInputMapper (env : Env) (e : Eng) (i o : Nat) (name : String) : Eng × Option Err :=
  match env.inMap e i o with
  | none => (e, none)
  | some (.error m) => (e, some (.eval name "mapper" m))
  | some (.ok m) => (e.modI i (fun I => I.modO o (fun x => { x with inputs := m })), none)

/-- `hasOutputInterceptor`, util.go lines 206-220. -/
def mocked (env : Env) (e : Eng) (i : Nat) (ob : Obj) : Bool :=
  match icpOut env e i ob with
  | some tc => tc.skipExecution
  | none => false

/-- `EvalActivity` after the input interceptor, taskinst.go lines 343-446; the argument is the state and whether to
evaluate. -/
def evalWith (env : Env) (p : Eng × Bool) (i o : Nat) (ob : Obj) (td : TaskDef) : Eng × Except Err Bool :=
  if p.2 = false then afterDone env p.1 i o ob td
  else
  match env.inSchema p.1 i o with
  | some err => (p.1, .error err)
  | none =>
  if mocked env p.1 i ob then afterDone env p.1 i o ob td
  else
  match callActivity env p.1 i o ob td with
  | (e3, .error err, panicked) =>
    (if panicked then e3 else e3.evalErrorData i ob.task.id err, .error err)
  | (e3, .ok true, _) => afterDone env e3 i o ob td
  | (e3, .ok false, _) => (e3, .ok false)

/-- `TaskInst.EvalActivity`, taskinst.go lines 298-447. Simplification: a failing input mapper leaves the inputs as they
are. -/
def evalOnce (env : Env) (e : Eng) (i o : Nat) : Eng × Except Err Bool :=
  match e.obj? i o with
  | none => (e, .error (.plain "no task instance"))
  | some ob =>
  match e.taskDef? i ob.task with
  | none => (e, .error (.plain "no task"))
  | some td =>
  match applyInputMapper env e i o td.name with
  | (e1, some err) => (e1, .error err)
  | (e1, none) => evalWith env (inputInterceptor env e1 i o ob) i o ob td

/-- `ctx.SetWorkingData(retryOnErrorAttr, …)`, retry.go lines 44 and 71. -/
def setRetry (e : Eng) (i o : Nat) (c : Int) : Eng :=
  e.modI i (fun I => I.modO o (fun x => { x with retry := some c }))

/-- `getRetryData`, retry.go lines 24-53. -/
def getRetry (env : Env) (e : Eng) (i o : Nat) : Eng × Except Err Int :=
  match (e.obj? i o).bind (·.retry) with
  | some c => (e, .ok c)
  | none =>
    match env.retryCount e i o with
    | .error err => (e, .error err)
    | .ok c => (e.setRetry i o c, .ok c)

/-- `retryEval` followed by `evalActivity`, retry.go lines 56-73, with `n` retries left after the one performed now. -/
def retryFrom (env : Env) : Nat → Eng → Nat → Nat → Eng × Except Err Bool
  | 0, e, i, o => evalOnce env (e.setRetry i o 0) i o
  | n + 1, e, i, o =>
    match evalOnce env (e.setRetry i o (n + 1)) i o with
    | (e1, .error err) => if err.retriable then retryFrom env n e1 i o else (e1, .error err)
    | r => r

/-- Is the task configured to retry, `RetryOnErrConfig() != nil`? -/
def hasRetry (e : Eng) (i o : Nat) : Bool :=
  match e.obj? i o with
  | none => false
  | some ob => match e.taskDef? i ob.task with
    | none => false
    | some td => td.retry

/-- `evalActivity`, taskbehavior.go lines 116-152. -/
def evalActivity (env : Env) (e : Eng) (i o : Nat) : Eng × Except Err Bool :=
  match evalOnce env e i o with
  | (e1, .ok d) => (e1, .ok d)
  | (e1, .error err) =>
    if err.retriable && e1.hasRetry i o then
      match getRetry env e1 i o with
      | (e2, .error rerr) => (e2, .error rerr)
      | (e2, .ok c) => if 0 < c then retryFrom env (c.toNat - 1) e2 i o else (e2, .error err)
    else (e1, .error err)

/-- `aa.PostEval(ti, nil)` of an asynchronous activity, taskinst.go lines 485-499, including a panic. -/
def callPost (env : Env) (e : Eng) (i o : Nat) (td : TaskDef) : Eng × Except Err Bool :=
  match td.act with
  | .async =>
    let a := env.post e i o
    match a.res with
    | .done => (e.applyActOut i o a, .ok true)
    | .wait => (e.applyActOut i o a, .ok false)
    | .err err => (e.applyActOut i o a, .error (err.setActivity td.name))
    | .panic m => (e.applyActOut i o a, .error (.eval td.name "unhandled" m))
  | _ => (e, .ok true)

/-- Outputs after a successful `PostEval`, taskinst.go lines 504-532. -/
def postStore (env : Env) (e : Eng) (i o : Nat) (ob : Obj) (td : TaskDef) : Eng × Except Err Unit :=
  match andThen (outputInterceptor env e i o ob td) (fun e1 =>
      andThen (if td.accumulates then e1.accumulate i o ob.task.id else outputMapper env e1 i o td.name)
        (fun e2 => assertion env e2 i ob)) with
  | (e1, some err) => (e1, .error err)
  | (e1, none) => (e1, .ok ())

/-- `TaskInst.PostEvalActivity`, taskinst.go lines 463-535. The result `done` without error is ignored by all callers,
so `.ok ()` stands for "no error". -/
def postOnce (env : Env) (e : Eng) (i o : Nat) : Eng × Except Err Unit :=
  match e.obj? i o with
  | none => (e, .error (.plain "no task instance"))
  | some ob =>
  match e.taskDef? i ob.task with
  | none => (e, .error (.plain "no task"))
  | some td =>
  match callPost env (e.modI i (fun I => { I with trace := .postAct o ob.task :: I.trace })) i o td with
  | (e1, .error err) => (e1, .error err)
  | (e1, .ok done) =>
  match (e1.obj? i o).bind (·.returnError) with
  | some err => (e1, .error err)
  | none => if done then postStore env e1 i o ob td else (e1, .ok ())

/-! ### Task behaviors -/

/-- What a call of `Eval` / `PostEval` of a behavior yields: a result, an error, or a panic. -/
inductive EvalOut
  | res (r : EvalResult)
  | err (e : Err)
  | panic (msg : String)

def setStatus (e : Eng) (i o : Nat) (s : TaskStatus) : Eng := e.modI i (fun I => I.setTaskStatus o s)

/-- `TaskBehavior.Eval`, taskbehavior.go lines 87-112. -/
def evalBasic (env : Env) (e : Eng) (i o : Nat) : Eng × EvalOut :=
  match evalActivity env e i o with
  | (e1, .error err) => (e1, .err err)
  | (e1, .ok true) => (e1, .res .done)
  | (e1, .ok false) => (e1, .res .wait)

/-- `TaskBehavior.PostEval`, taskbehavior.go lines 155-196. -/
def postBasic (env : Env) (e : Eng) (i o : Nat) : Eng × EvalOut :=
  match postOnce env e i o with
  | (e1, .ok _) => (e1, .res .done)
  | (e1, .error err) =>
    if err.isAct && e1.hasRetry i o then
      match getRetry env e1 i o with
      | (e2, .error rerr) => (e2, .err rerr)
      | (e2, .ok c) =>
        if 0 < c then
          match retryFrom env (c.toNat - 1) e2 i o with
          | (e3, .error err') => (e3, .err err')
          | (e3, .ok true) => (e3, .res .done)
          | (e3, .ok false) => (e3, .res .wait)
        else (e2, .err err)
    else (e1, .err err)

/-- The iterator of the task, created on first use: iteratorbehavior.go lines 34-112. `none`: nothing to do. -/
def getIter (env : Env) (e : Eng) (i o : Nat) (td : TaskDef) : Except Err (Option Iter) :=
  match (e.obj? i o).bind (·.iter) with
  | some it => .ok (some it)
  | none =>
    match td.loop with
    | none => .ok none
    | some _ =>
      match env.iterOn e i o with
      | .error err => .error err
      | .ok v => mkIter env.toInt env.order td.name v

/-- `IteratorTaskBehavior.Eval`, iteratorbehavior.go lines 22-151. Delays are not modelled. A value that is not there
makes Go panic before the iteration variable is updated. -/
def evalIter (env : Env) (e : Eng) (i o : Nat) (td : TaskDef) : Eng × EvalOut :=
  match getIter env e i o td with
  | .error err => (e, .err err)
  | .ok none => (e, .res .done)
  | .ok (some it) =>
    let it1 := it.next.1
    if it.next.2 = false then
      (e.modI i (fun I => I.modO o (fun x =>
        { x with iter := some it1, iteration := some (x.iteration.getD (.null, .null, 0)) })), .res .done)
    else
    match it1.value with
    | none => (e, .panic "index out of range")
    | some v =>
      let e1 := e.modI i (fun I => I.modO o (fun x =>
        { x with iter := some it1, iteration := some (it1.key, v, it1.current) }))
      match evalActivity env e1 i o with
      | (e2, .error err) => (e2.setStatus i o .failed, .err err)
      | (e2, .ok false) => (e2.setStatus i o .waiting, .res .wait)
      | (e2, .ok true) => (e2, .res .again)

/-- `IteratorTaskBehavior.PostEval`, iteratorbehavior.go lines 154-174. -/
def postIter (env : Env) (e : Eng) (i o : Nat) : Eng × EvalOut :=
  match postOnce env e i o with
  | (e1, .error err) => (e1.setStatus i o .failed, .err err)
  | (e1, .ok _) =>
    let e2 := e1.setStatus i o .done
    match (e2.obj? i o).bind (·.iter) with
    | none => (e2, .panic "interface conversion")
    | some it => (e2, if it.hasNext then .res .again else .res .done)

/-- `initIndex`, dowhilebehavior.go lines 118-124. -/
def dwInit (e : Eng) (i o : Nat) : Eng :=
  e.modI i (fun I => I.modO o (fun x => { x with dwIndex := some (x.dwIndex.getD 0) }))

/-- `updateDoWhileIndex`, dowhilebehavior.go lines 108-116. -/
def dwUpdate (e : Eng) (i o : Nat) : Eng :=
  e.modI i (fun I => I.modO o (fun x => { x with dwIndex := some ((x.dwIndex.getD 0) + 1) }))

/-- `checkDoWhileCondition` and `evaluateCondition`, dowhilebehavior.go lines 71-99, followed by the deferred index
update (lines 49, 67). -/
def dwCheck (env : Env) (e : Eng) (i o : Nat) (td : TaskDef) : Eng × EvalOut :=
  (e.dwUpdate i o,
    if td.hasCondition then
      match env.cond e i o with
      | .ok true => .res .again
      | .ok false => .res .done
      | .err err => .err err
      | .panic m => .panic m
    else .res .done)

/-- `DoWhileTaskBehavior.Eval`, dowhilebehavior.go lines 24-51. -/
def evalDoWhile (env : Env) (e : Eng) (i o : Nat) (td : TaskDef) : Eng × EvalOut :=
  match evalActivity env (e.dwInit i o) i o with
  | (e1, .error err) => (e1.setStatus i o .failed, .err err)
  | (e1, .ok false) => (e1.setStatus i o .waiting, .res .wait)
  | (e1, .ok true) => dwCheck env e1 i o td

/-- `DoWhileTaskBehavior.PostEval`, dowhilebehavior.go lines 54-69. -/
def postDoWhile (env : Env) (e : Eng) (i o : Nat) (td : TaskDef) : Eng × EvalOut :=
  match postOnce env (e.dwInit i o) i o with
  | (e1, .error err) => (e1.setStatus i o .failed, .err err)
  | (e1, .ok _) => dwCheck env (e1.setStatus i o .done) i o td

/-- The behavior of the task type, ind_instance.go lines 318-321. -/
def evalKind (env : Env) (e : Eng) (i o : Nat) (td : TaskDef) : Eng × EvalOut :=
  match td.kind with
  | .basic => evalBasic env e i o
  | .iterator => evalIter env e i o td
  | .doWhile => evalDoWhile env e i o td

def postKind (env : Env) (e : Eng) (i o : Nat) (td : TaskDef) : Eng × EvalOut :=
  match td.kind with
  | .basic => postBasic env e i o
  | .iterator => postIter env e i o
  | .doWhile => postDoWhile env e i o td

/-! ### Completion and errors -/

/-- Completion of a flow instance, ind_instance.go lines 509-558: status, and for a subflow the outputs and error of
its host, the scheduling of the host and the removal from the subflow table. -/
def complete (e : Eng) (i : Nat) : Eng :=
  match e.insts[i]? with
  | none => e
  | some I =>
    let e1 := e.modI i (fun J => J.setFlowStatus .completed)
    if i = 0 then e1
    else
      let e2 := match I.host with
        | none => e1
        | some (hi, ho) =>
          (e1.modI hi (fun H => H.modO ho (fun x => { x with outputs := I.returnData, returnError := none }))).schedule hi ho
      { e2 with subflows := e2.subflows.del I.subflowId }

/-- A subflow fails: the error is handed to its host, which is scheduled. ind_instance.go lines 646-651 and 709-714. -/
def failHost (e : Eng) (i : Nat) (err : Err) : Eng :=
  match e.insts[i]? with
  | none => e
  | some I =>
    match I.host with
    | none => e
    | some (hi, ho) => (e.modI hi (fun H => H.modO ho (fun x => { x with returnError := some err }))).schedule hi ho

/-- `appendErrorData`, taskinst.go lines 547-553. -/
def appendErrorData (e : Eng) (i : Nat) (t : TaskId) (err : Err) : Eng :=
  e.modI i (fun I => (I.setValue "_E" (errorObj t err)).setValue ("_E." ++ t) (errorObj t err))

/-- `HandleGlobalError`, ind_instance.go lines 666-719. Control continues with the start tasks of the error handler, if
there is one. Line 684 replaces the task table of the top-level instance, whatever the container. -/
def globalError (e : Eng) (i : Nat) (err : Err) : Eng :=
  match e.insts[i]? with
  | none => e
  | some I =>
    if I.handling then e.modI i (fun J => J.setFlowStatus .failed)
    else
      let e1 := e.modI i (fun J => { J with handling := true })
      match I.defn.eh with
      | some _ =>
        let e2 := (e1.modI 0 (fun J => J.clearTasks)).modI i (fun J => { J with trace := .ehStart :: J.trace })
        { e2 with cur := i, stack := [.enter (Inst.startEntries I.defn true)] }
      | none =>
        let e2 := e1.modI i (fun J => J.setFlowStatus .failed)
        if i = 0 then e2.modI 0 (fun J => { J with returnError := some err })
        else e2.failHost i err

/-- `handleTaskError`, ind_instance.go lines 605-663. -/
def taskError (e : Eng) (i o : Nat) (t : TaskRef) (err : Err) : Eng :=
  match e.insts[i]? with
  | none => e
  | some I =>
    match I.errorTask o t with
    | (I1, some es) =>
      let e1 := e.modI i (fun _ => I1.setValue ("_E." ++ t.id) (errorObj t.id err))
      { e1 with cur := i, stack := [.enter es, .release t] }
    | (I1, none) =>
      let e1 := e.modI i (fun _ => I1)
      if I.handling then
        let e2 := e1.modI i (fun J => J.setFlowStatus .failed)
        if i = 0 then e2.appendErrorData i t.id err else e2.failHost i err
      else (e1.appendErrorData i t.id err).globalError i err

/-- The tail of `handleTaskDone`, ind_instance.go lines 501-573: completion test, successors, release. `notify` is
the result of `Done` / `Skip`; `rest` are the frames below. -/
def finishTask (e : Eng) (i : Nat) (t : TaskRef) (notify : Bool) (es : List TaskEntry) (rest : List Frame) : Eng :=
  match e.insts[i]? with
  | none => e
  | some I =>
    if (notify && I.allDone) || I.force then
      { e.complete i with cur := i, stack := .release t :: rest }
    else { e with cur := i, stack := .enter es :: .release t :: rest }

/-- `handleTaskDone` for a task that is not skipped, ind_instance.go lines 486-499. Simplification: the text added to a
link error (taskbehavior.go lines 267-271) is left out. -/
def taskDone (env : Env) (e : Eng) (i o : Nat) (t : TaskRef) : Eng :=
  match e.insts[i]? with
  | none => e
  | some I =>
    match I.doneTask env.prio (env.link e i) o t with
    | (I1, .error m) =>
      let err : Err := .plain ("error handling task done transition for task [" ++ e.taskName i t ++ "] in flow [" ++
        e.topName ++ "] : " ++ m)
      ((e.modI i (fun _ => I1)).appendErrorData i t.id err).globalError i err
    | (I1, .ok es) => (e.modI i (fun _ => I1)).finishTask i t ((I.defn.toLinks t).length = 0) es []

/-- `handleTaskDone` for a skipped task, ind_instance.go lines 480-485: `Skip` always reports `propagateSkip = false`. -/
def taskSkipped (e : Eng) (i o : Nat) (rest : List Frame) : Eng :=
  match e.insts[i]? with
  | none => e
  | some I =>
    match I.objs[o]? with
    | none => { e with stack := rest }
    | some ob =>
      match I.skipTask o ob.task with
      | (I1, es) => (e.modI i (fun _ => I1)).finishTask i ob.task ((I.defn.toLinks ob.task).length = 0) es rest

/-- Handling the result of a behavior, ind_instance.go lines 435-467, and the recovery of a panic, lines 403-422. -/
def handleResult (env : Env) (e : Eng) (i o : Nat) (t : TaskRef) (name : String) (r : EvalOut) : Eng :=
  match r with
  | .err err => e.taskError i o t err
  | .res .done => taskDone env e i o t
  | .res .skip => taskDone env e i o t
  | .res .wait => e.setStatus i o .waiting
  | .res .fail => e.setStatus i o .failed
  | .res .again => e.schedule i o
  | .panic m =>
    match e.insts[i]? with
    | none => e
    | some I =>
      if I.handling then e
      else
        (e.appendErrorData i t.id (.eval name "unhandled" ("unhandled Error executing task '" ++ t.id ++ "' : " ++ m))).globalError i
          (.plain ("unhandled Error executing task '" ++ t.id ++ "' : " ++ m))

/-- `execTask`, ind_instance.go lines 401-468. -/
def exec (env : Env) (e : Eng) (i o : Nat) : Eng :=
  match e.obj? i o with
  | none => e
  | some ob =>
    match e.taskDef? i ob.task with
    | none => e
    | some td =>
      match ob.status with
      | .waiting =>
        handleResult env (postKind env e i o td).1 i o ob.task td.name (postKind env e i o td).2
      | .skipped => e
      | .done => e
      | _ =>
        handleResult env (evalKind env e i o td).1 i o ob.task td.name (evalKind env e i o td).2

/-! ### Steps -/

/-- One iteration of the loop of `enterTasks`, ind_instance.go lines 728-748, for the entry `x`; `xs` are the remaining
entries and `rest` the frames below. A failing settings mapper ends the loop. -/
def enterEntry (env : Env) (e : Eng) (x : TaskEntry) (xs : List TaskEntry) (rest : List Frame) : Eng :=
  match e.insts[e.cur]? with
  | none => { e with stack := rest }
  | some I =>
    let o := (I.enterTask x.task).2.1
    let e1 := e.modI e.cur (fun _ => (I.enterTask x.task).1)
    match (I.enterTask x.task).2.2 with
    | .notReady => { e1 with stack := .enter xs :: rest }
    | .eval =>
      if env.settingsOk e1 e.cur o then { e1.schedule e.cur o with stack := .enter xs :: rest }
      else { e1 with stack := rest }
    | .skip => e1.taskSkipped e.cur o (.enter xs :: rest)

/-- `DoStep`, ind_instance.go lines 298-336, up to the point where control enters `enterTasks`. -/
def doStep (env : Env) (e : Eng) : Eng :=
  match e.insts[0]? with
  | none => e
  | some I =>
    let e1 := { e with stepID := e.stepID + 1 }
    if I.status = .active then
      match e.queue[env.pick e % e.queue.length]? with
      | none => e1
      | some w =>
        exec env { e1 with queue := e.queue.eraseIdx (env.pick e % e.queue.length), qlog := .removed w :: e.qlog } w.inst w.obj
    else e1

/-- One micro step: continue the functions on the stack, or, if there are none, perform the next `DoStep`. -/
def step (env : Env) (e : Eng) : Eng :=
  match e.stack with
  | [] => e.doStep env
  | .enter [] :: rest => { e with stack := rest }
  | .enter (x :: xs) :: rest => e.enterEntry env x xs rest
  | .release t :: rest => { e.modI e.cur (fun I => I.release t) with stack := rest }

/-- `NewIndependentInstance`, ind_instance.go lines 57-93. -/
def new (id uri : String) (d : Def) : Eng := { id := id, insts := [{ defn := d, uri := uri }] }

/-- `NewIndependentInstance` followed by `Start`, ind_instance.go lines 161-163. -/
def init (env : Env) (id uri : String) (d : Def) (inputs : AMap String Val) : Eng :=
  startInstance env (new id uri d) 0 inputs

/-- The states of a run. -/
def run (env : Env) (e : Eng) : Nat → Eng
  | 0 => e
  | n + 1 => step env (run env e n)

end Eng

end Flow
