import Verif.Model.Run
import Verif.Model.Serial

/-
How a run comes about: `action.go` lines 128-155 (`New`) and 178-356 (`Run` up to the goroutine), the requests of the tester
(`tester/request.go`) and the detached call of a flow (`instance/util.go` lines 383-412).

Not modelled: logging, tracing, the runner of the core library, the execution options (see `Env.icp` and `Model/Support`).
-/

namespace Flow.Launch

/-- Prefix of the identifiers of resources, `resource.UriScheme` of the core library. -/
def isResource (uri : String) : Bool := "res://".toList.isPrefixOf uri.toList

/-- What a run meets: the flow manager, the resources, the registered models, the next identifier of the generator, the
identifier of the event in the context (empty if there is none) and whether a state recorder is present. -/
structure World where
  flows : String → Except Err (Option Def)
  resources : String → Option Def
  modelOk : Def → Bool
  nextId : String
  event : String := ""
  recorder : Bool := false

/-- `GetDefinition`, support/definition.go lines 19-45: the definition, if there is one, and whether it is a resource. -/
def World.find (w : World) (uri : String) : Except Err (Option Def × Bool) :=
  if isResource uri then
    match w.resources uri with
    | some d => .ok (some d, true)
    | none => .ok (none, false)
  else
    match w.flows uri with
    | .error e => .error e
    | .ok d => .ok (d, false)

/-- `FlowAction`, action.go lines 157-162: the flow it was created for, and its definition if that is a resource. -/
structure Action where
  uri : String
  res : Option Def

/-- `ActionFactory.New`, action.go lines 128-155. -/
def World.newAction (w : World) (uri : String) : Except Err Action :=
  match w.find uri with
  | .error e => .error e
  | .ok (none, _) => .error (.plain ("unable to resolve flow: " ++ uri))
  | .ok (some d, res) => .ok ⟨uri, if res then some d else none⟩

/-- A saved flow instance given to a run: read from a document (`UnmarshalJSON` leaves its master nil), or one that is still in
memory. -/
inductive Saved
  | restored (r : Restored)
  | live (e : Eng)

/-- `RunOptions`, instance/exec.go lines 14-25. -/
structure Options where
  op : Int := 0
  returnId : Bool := false
  uri : String := ""
  preservedId : String := ""
  initStep : Int := 0
  state : Option Saved := none
  originalId : String := ""
  detach : Bool := false

/-- The value of an input: ordinary, or a pointer to run options. -/
inductive Arg
  | val (v : Val)
  | options (o : Options)

/-- What `RecordStart` is told, action.go lines 308-312. -/
structure Recorded where
  id : String
  inputs : AMap String Val
  originalId : String

/-- The instance that is executed, and what is known when the goroutine is started: the step counter (lines 338-342), whether
the identifier is reported (line 366) and whether the caller is released at once (line 359). -/
structure Launched (α : Type) where
  inst : α
  count : Int
  returnId : Bool
  detach : Bool
  recorded : Option Recorded

/-- Outcome of `Run`: an error, a panic, a flow instance in memory that is executed, or a restarted one. -/
inductive Outcome
  | error (e : Err)
  | panic
  | started (l : Launched Eng)
  | restarted (l : Launched Restored)

/-- The run options, lines 187-206: an input of that name with another type is ignored. -/
def optionsOf (inputs : AMap String Arg) : Options :=
  match inputs.get? "_run_options" with
  | some (.options o) => o
  | _ => {}

/-- `delete(inputs, "_run_options")`, line 208; the other inputs are values. Simplification: pointers to run options under another
name are dropped. -/
def values (inputs : AMap String Arg) : AMap String Val :=
  (inputs.del "_run_options").filterMap (fun p => match p.2 with
    | .val v => some (p.1, v)
    | .options _ => none)

/-- The flow that is run, lines 210-212. -/
def uriOf (a : Action) (o : Options) : String := if o.uri = "" then a.uri else o.uri

/-- The identifier of the instance, lines 239-244 and 264-269. -/
def World.idOf (w : World) (o : Options) : String := if o.preservedId = "" then w.nextId else o.preservedId

/-- `inst.SetValue(EventIdAttr, eventID)`, lines 314-317. -/
def World.addEvent (w : World) (attrs : AMap String Val) : AMap String Val :=
  if w.event = "" then attrs else attrs.set "event.id" (.str w.event)

/-- What is common to all runs. -/
def World.launched {α : Type} (w : World) (o : Options) (id : String) (inputs : AMap String Val) (a : α) : Launched α :=
  { inst := a
    count := if 0 < o.initStep then o.initStep - 1 else 0
    returnId := o.returnId
    detach := o.detach
    recorded := if w.recorder then some ⟨id, inputs, o.originalId⟩ else none }

/-- The definition used by a new instance, lines 225-235: that of the action if it is a resource, else the flow manager is asked. -/
def World.startDef (w : World) (a : Action) (uri : String) : Except Err (Option Def) :=
  match a.res with
  | some d => .ok (some d)
  | none => w.flows uri

/-- `OpStart`, lines 224-256, 308-317 and 332-333. -/
def World.start (w : World) (env : Env) (a : Action) (o : Options) (inputs : AMap String Val) : Outcome :=
  match w.startDef a (uriOf a o) with
  | .error e => .error e
  | .ok none => .error (.plain ("flow not found for URI: " ++ uriOf a o))
  | .ok (some d) =>
    if w.modelOk d then
      let e0 := Eng.new (w.idOf o) (uriOf a o) d
      let e1 := if w.recorder then e0.modI 0 Inst.fixReturnData else e0
      let e2 := e1.modI 0 (fun I => { I with attrs := w.addEvent I.attrs })
      .started (w.launched o (w.idOf o) inputs (Eng.startInstance env e2 0 inputs))
    else .error (.plain "flow model not found")

/-- `OpRestart`, lines 257-282, 314-317 and 335. Simplification: an instance that is in memory is not restarted. -/
def World.restart (w : World) (o : Options) (inputs : AMap String Val) : Outcome :=
  match o.state with
  | some (.restored r) =>
    match r.restart (fun u => (w.find u).map (·.1)) (((w.find r.top.uri).toOption.bind (·.1)).elim false w.modelOk) (w.idOf o) (o.initStep - 1) with
    | .error => .error (.plain "unable to restart")
    | .panic => .panic
    | .ok r1 => .restarted (w.launched o (w.idOf o) inputs
        { r1 with top := { r1.top with attrs := (w.addEvent r1.top.attrs).update inputs } })
  | some (.live _) => .panic
  | none => .error (.plain "unable to restart instance, initial state not provided")

/-- `OpResume`, lines 283-296, 314-317 and 335. Line 286 asks for the identifier, which dereferences the master
(instance.go lines 60-66); a restored instance has none. -/
def World.resume (w : World) (o : Options) (inputs : AMap String Val) : Outcome :=
  match o.state with
  | some (.live e) =>
    .started (w.launched o e.id inputs (e.modI 0 (fun I => { I with attrs := (w.addEvent I.attrs).update inputs })))
  | some (.restored _) => .panic
  | none => .error (.plain "unable to resume instance, initial state not provided")

/-- `FlowAction.Run`, lines 178-356; 0, 1 and 2 are `OpStart`, `OpResume` and `OpRestart` (exec.go lines 7-11). For any other
operation there is no instance and line 307 dereferences nil. -/
def World.run (w : World) (env : Env) (a : Action) (inputs : AMap String Arg) : Outcome :=
  let o := optionsOf inputs
  if uriOf a o = "" then .error (.plain "cannot run flow, flowURI not specified")
  else if o.op = 0 then w.start env a o (values inputs)
  else if o.op = 1 then w.resume o (values inputs)
  else if o.op = 2 then w.restart o (values inputs)
  else .panic

/-- `inputs[name] = value` for all values of a request, followed by the run options. -/
def request (data : AMap String Val) (o : Options) : AMap String Arg :=
  AMap.set (data.map (fun p => (p.1, Arg.val p.2))) "_run_options" (.options o)

/-- `RequestProcessor.StartFlow`, tester/request.go lines 37-86. -/
def World.testStart (w : World) (env : Env) (uri : String) (attrs data : AMap String Val) : Outcome :=
  match w.newAction uri with
  | .error e => .error e
  | .ok a => w.run env a (request (if 0 < attrs.length then attrs else data) { returnId := true, uri := uri })

/-- `RequestProcessor.RestartFlow`, tester/request.go lines 90-123. -/
def World.testRestart (w : World) (env : Env) (r : Restored) (data : AMap String Val) : Outcome :=
  match w.newAction r.top.uri with
  | .error e => .error e
  | .ok a => w.run env a (request data { op := 2, returnId := true, uri := r.top.uri, state := some (.restored r) })

/-- `RequestProcessor.ResumeFlow`, tester/request.go lines 127-160. -/
def World.testResume (w : World) (env : Env) (r : Restored) (data : AMap String Val) : Outcome :=
  match w.newAction r.top.uri with
  | .error e => .error e
  | .ok a => w.run env a (request data { op := 1, returnId := true, uri := r.top.uri, state := some (.restored r) })

/-- The identifier of the event that is passed on, instance/util.go lines 399-407: the attribute of the flow instance of the task,
else that of the top-level instance; it must be a string. -/
def eventOf (e : Eng) (i : Nat) : String :=
  match ((e.insts[i]?).bind (fun I => AMap.get? I.attrs "event.id")).or ((e.insts[0]?).bind (fun I => AMap.get? I.attrs "event.id")) with
  | some (.str s) => s
  | _ => ""

/-- `Eval` of the subflow activity in detached mode, activity/subflow/activity.go lines 87-109, and `StartDetachedSubFlow`,
instance/util.go lines 383-412, for the task object `o` of instance `i`. The metadata of the flow are those of the definition that
`GetDefinition` finds. -/
def World.detached (w : World) (env : Env) (e : Eng) (i o : Nat) (uri : String) : Outcome :=
  match w.newAction uri with
  | .error err => .error err
  | .ok a =>
    match w.find uri with
    | .ok (some d, _) =>
      ({ w with event := eventOf e i } : World).run env a
        (request (Eng.subflowInputs d (((e.obj? i o).map (·.inputs)).getD [])) { detach := true })
    | _ => .error (.plain ("unable to resolve flow: " ++ uri))

/-- What the task sees of the detached call: it is done at once, or fails with the error (activity.go line 108). -/
def World.detachedResult (w : World) (env : Env) (e : Eng) (i o : Nat) (uri : String) : ActRes :=
  match w.detached env e i o uri with
  | .error err => .err err
  | .panic => .panic "nil pointer dereference"
  | _ => .done

end Flow.Launch
