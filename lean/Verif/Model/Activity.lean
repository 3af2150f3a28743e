import Verif.Model.DefinitionSer

/-
The activity of a task: its configuration when a flow is loaded (`createActivityConfig`, definition/definition_ser.go), its
reconfiguration and its cleanup (`Reconfigure` and `Cleanup`, definition/definition.go).
Outside code is passed in as `ActEnv`: the activity registry, the activities themselves, and the conversions, expressions,
mappers and schemas of the core library.
-/

namespace Flow.Act

open Ser

/-- `activity.Config` of the core library: the description of an activity. -/
structure ActRep where
  ref : String := ""
  type : String := ""
  settings : AMap String Val := []
  input : AMap String Val := []
  output : AMap String Val := []
  inSchemas : Option (AMap String Val) := none
  outSchemas : Option (AMap String Val) := none

/-- What is known about a registered activity: types of its inputs and outputs, whether it has a factory, and which of the
interfaces `ReconfigurableActivity` and `NeedsCleanup` its objects implement. -/
structure Desc where
  inputs : AMap String String := []
  outputs : AMap String String := []
  factory : Bool := true
  reconfigurable : Bool := false
  needsCleanup : Bool := false

/-- Code outside of these functions. -/
structure ActEnv where
  /-- `support.GetAliasRef("activity", …)` -/
  alias : String → Option String
  /-- `activity.Get` -/
  get : String → Option Desc
  /-- `metadata.ResolveSettingValue`: the value and the error that are returned -/
  resolve : String → String → Val → Val × Option String
  /-- `isExpr` -/
  isExpr : Val → Bool
  /-- `coerce.ToType`: the value and the error that are returned -/
  coerce : Val → String → Val × Option String
  /-- `mf.NewMapper`: `some msg` on failure -/
  mapper : AMap String Val → Option String
  /-- `schema.FindOrCreate`: `some msg` on failure -/
  schema : Val → Option String
  /-- the factory of the activity, given the settings: `some msg` on failure -/
  create : String → AMap String Val → Option String
  /-- `Reconfigure` of the activity, given the settings: `some msg` on failure -/
  reconfigure : String → AMap String Val → Option String
  /-- `os.Getenv("TEST_MODE") == "true"` -/
  testMode : Bool := false

/-- `ActivityConfig`, definition/definition.go lines 186-205; `outputs` and the schemas are `none` if nil. -/
structure ActCfg where
  ref : String
  type : String
  settings : AMap String Val := []
  inputs : AMap String Val := []
  outputs : Option (AMap String Val) := none
  inSchemas : Option (AMap String Val) := none
  outSchemas : Option (AMap String Val) := none

/-- The deprecated `type`, definition_ser.go lines 197-200. -/
def givenRef (r : ActRep) : String := if r.ref = "" ∧ r.type ≠ "" then "#" ++ r.type else r.ref

/-- The reference of the activity, lines 197-213. -/
def findRef (env : ActEnv) (r : ActRep) : Build String :=
  if givenRef r = "" then .error (.err "activity ref not specified for task")
  else if (givenRef r).toList.head? = some '#' then
    match env.alias (givenRef r) with
    | some ref => .ok ref
    | none => .error (.err ("ref alias '" ++ givenRef r ++ "' has no corresponding installed activity"))
  else .ok (givenRef r)

/-- The last three parts, if there are at least three, lines 216-221. -/
def lastParts (l : List String) : List String := if 3 ≤ l.length then l.drop (l.length - 3) else l

/-- The type of the activity, lines 215-222. -/
def typeOf (r : ActRep) (ref : String) : String :=
  if r.type = "" then (String.intercalate "." (lastParts (ref.splitOn "/"))).toLower else r.type

/-- The loop over the settings, lines 247-253 and definition.go lines 151-156: the value that is returned is stored before the
error is looked at. The order of the list is the one in which Go ranges over the map. -/
def resolveSettings (env : ActEnv) (ref : String) : AMap String Val → AMap String Val → AMap String Val × Option String
  | [], m => (m, none)
  | (n, v) :: l, m =>
    match env.resolve ref n v with
    | (w, some err) => (m.set n w, some ("unable to resolve setting [" ++ n ++ "]'s value:" ++ err))
    | (w, none) => resolveSettings env ref l (m.set n w)

/-- A connection object, lines 279-289. -/
def isConnection : Val → Bool
  | .obj m => (AMap.get? m "id").isSome && (AMap.get? m "type").isSome
  | _ => false

/-- What a failing conversion means, lines 277-296. -/
def onFailure (env : ActEnv) (k : String) (v w : Val) (typ err : String) : Build Val :=
  if typ = "connection" ∧ isConnection v = true then .ok v
  else if env.testMode then .ok w
  else .error (.err ("unable to convert input [" ++ k ++ "]'s value to type [" ++ typ ++ "]:" ++ err))

/-- A constant, converted to the type. -/
def toType (env : ActEnv) (v : Val) (typ : String) (fail : Val → String → Build Val) : Build Val :=
  match env.coerce v typ with
  | (w, none) => .ok w
  | (w, some err) => fail w err

/-- A constant, converted to the declared type, if there is one. -/
def declared (env : ActEnv) (v : Val) (fail : String → Val → String → Build Val) : Option String → Build Val
  | none => .ok v
  | some typ => toType env v typ (fail typ)

/-- An input, lines 272-306. -/
def convertInput (env : ActEnv) (d : Desc) (k : String) (v : Val) : Build Val :=
  if env.isExpr v then .ok v else declared env v (fun typ w err => onFailure env k v w typ err) (d.inputs.get? k)

/-- An output, lines 314-330. -/
def convertOutput (env : ActEnv) (d : Desc) (k : String) (v : Val) : Build Val :=
  if env.isExpr v then .ok v
  else declared env v (fun typ _ err => .error (.err ("unable to convert output [" ++ k ++ "]'s value to type [" ++ typ ++ "]:" ++ err)))
    (d.outputs.get? k)

/-- The loops over inputs and outputs, in the order in which Go ranges over the map. -/
def convertAll (f : String → Val → Build Val) : AMap String Val → Build (AMap String Val)
  | [] => .ok []
  | (k, v) :: l =>
    match f k v with
    | .error x => .error x
    | .ok w =>
      match convertAll f l with
      | .error x => .error x
      | .ok m => .ok ((k, w) :: m)

/-- The schemas, lines 352-373. Simplification: schemas are kept as they are described. -/
def checkSchemas (env : ActEnv) : Option (AMap String Val) → Build Unit
  | none => .ok ()
  | some m =>
    match m.findSome? (fun p => env.schema p.2) with
    | some err => .error (.err ("unable to find/create schema:" ++ err))
    | none => .ok ()

/-- An error that ends the function. -/
def failWith (o : Option String) : Build Unit :=
  match o with
  | some m => .error (.err m)
  | none => .ok ()

/-- `createActivityConfig`, definition_ser.go lines 195-377. -/
def createCfg (env : ActEnv) (r : ActRep) : Build ActCfg := do
  let ref ← findRef env r
  match env.get ref with
  | none => .error (.err ("unable to find activity with ref [" ++ ref ++ "]"))
  | some d =>
    failWith (resolveSettings env ref r.settings []).2
    failWith (if d.factory then env.create ref (resolveSettings env ref r.settings []).1 else none)
    let ins ← convertAll (convertInput env d) r.input
    failWith (env.mapper ins)
    let outs ← convertAll (convertOutput env d) r.output
    checkSchemas env r.inSchemas
    checkSchemas env r.outSchemas
    return { ref := ref, type := typeOf r ref, settings := (resolveSettings env ref r.settings []).1, inputs := ins
             outputs := if r.output = [] then none else some outs, inSchemas := r.inSchemas, outSchemas := r.outSchemas }

/-- The tasks of a flow or of an error handler with their activities, `none` if a task has no activity. -/
abbrev Acts := AMap TaskId (Option ActCfg)

/-- What `Reconfigure` reads of a task description. -/
structure TaskActRep where
  id : TaskId
  act : Option ActRep := none

/-- State of `Reconfigure`: the tasks; the calls of `Reconfigure` of activities and the logged errors, newest first;
`panicked`: a nil pointer was dereferenced. -/
structure RSt where
  tasks : Acts
  calls : List (TaskId × AMap String Val) := []
  errors : List String := []
  panicked : Bool := false

/-- The end of `reconfigureTaskSettings`, definition.go lines 153-162. -/
def tell (env : ActEnv) (s : RSt) (id : TaskId) (c : ActCfg) (r : AMap String Val × Option String) : RSt :=
  match r.2 with
  | some err => { s with tasks := s.tasks.set id (some { c with settings := r.1 }), errors := err :: s.errors }
  | none =>
    { s with tasks := s.tasks.set id (some { c with settings := r.1 }), calls := (id, r.1) :: s.calls
             errors := (env.reconfigure c.ref r.1).toList ++ s.errors }

/-- Whether the activity is a `ReconfigurableActivity`, line 149. -/
def canReconfigure (env : ActEnv) (c : ActCfg) : Bool :=
  match env.get c.ref with
  | some d => d.reconfigurable
  | none => false

/-- `reconfigureTaskSettings`, definition.go lines 147-165. -/
def reconfigureSettings (env : ActEnv) (s : RSt) (id : TaskId) (c : ActCfg) (r : Option ActRep) : RSt :=
  if canReconfigure env c then
    match r with
    | none => { s with panicked := true }
    | some a => tell env s id c (resolveSettings env c.ref a.settings c.settings)
  else s

/-- The body of the loops of `Reconfigure`, lines 120-127 and 133-140. -/
def reconfigureTask (env : ActEnv) (s : RSt) (r : TaskActRep) : RSt :=
  match s.tasks.get? r.id with
  | none => s
  | some none => { s with panicked := true }
  | some (some c) => if c.settings = [] then s else reconfigureSettings env s r.id c r.act

/-- The loops; a panic ends them. -/
def reconfigureTasks (env : ActEnv) : List TaskActRep → RSt → RSt
  | [], s => s
  | r :: rs, s => if s.panicked then s else reconfigureTasks env rs (reconfigureTask env s r)

/-- The activities of a flow definition. -/
structure CDef where
  main : Acts
  handler : Option Acts := none

/-- The description that is given to `Reconfigure`. -/
structure NewRep where
  tasks : List TaskActRep
  handler : Option (List TaskActRep) := none

/-- What `Reconfigure` does: the definition afterwards, the calls of activities and the logged errors, newest first, and how it
ends. -/
structure ROut where
  defn : CDef
  calls : List (TaskId × AMap String Val)
  errors : List String
  result : Build Unit

/-- How a state ends. -/
def RSt.result (s : RSt) : Build Unit := if s.panicked then .error .panic else .ok ()

/-- The second loop, lines 130-142. -/
def reconfigureHandler (env : ActEnv) (d : CDef) (s : RSt) : Option (List TaskActRep) → Option Acts → ROut
  | some rs, some h =>
    let s' := reconfigureTasks env rs { s with tasks := h }
    ⟨⟨s.tasks, some s'.tasks⟩, s'.calls, s'.errors, s'.result⟩
  | _, _ => ⟨⟨s.tasks, d.handler⟩, s.calls, s.errors, .ok ()⟩

/-- `Reconfigure`, definition.go lines 101-145; `rep` is `none` if the bytes are no JSON description. -/
def reconfigure (env : ActEnv) (d : CDef) : Option NewRep → ROut
  | none => ⟨d, [], [], .error (.err "error loading flow resource")⟩
  | some rep =>
    let s := reconfigureTasks env rep.tasks { tasks := d.main }
    if s.panicked then ⟨⟨s.tasks, d.handler⟩, s.calls, s.errors, .error .panic⟩
    else reconfigureHandler env d s rep.handler d.handler

/-- Whether `Cleanup` of the activity is called, lines 88-89: it is no singleton, that is, it has a factory, and it implements
`NeedsCleanup`. -/
def disposes (env : ActEnv) (c : ActCfg) : Bool :=
  match env.get c.ref with
  | some d => d.factory && d.needsCleanup
  | none => false

/-- The loop of `Cleanup`, lines 87-96, in the order in which Go ranges over the map: the tasks whose activities are cleaned up,
and whether the loop reached its end; a task without activity is a nil pointer dereference. -/
def cleanTasks (env : ActEnv) : Acts → List TaskId × Bool
  | [] => ([], true)
  | (_, none) :: _ => ([], false)
  | (t, some c) :: l =>
    if disposes env c then (t :: (cleanTasks env l).1, (cleanTasks env l).2) else cleanTasks env l

/-- `Cleanup`, definition.go lines 86-99. -/
def cleanup (env : ActEnv) (d : CDef) : List TaskId × Bool := cleanTasks env d.main

end Flow.Act
