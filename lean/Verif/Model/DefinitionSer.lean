import Verif.Model.Definition

/-
Building a flow definition from its description: `definition/definition_ser.go`.
Outside code is passed in as `SerEnv`: the expression compiler, the conversions of the core library, the
activity registry, the mapper factory and the validator of task types (`Verif.Model.Registry` models the last).
-/

namespace Flow.Ser

/-- How building stops early: with an error value or with a Go panic. `NewDefinition` turns a panic into an
error (`support.HandlePanic`, definition_ser.go line 64). -/
inductive Fault
  | err (msg : String)
  | panic
  deriving DecidableEq, Repr

abbrev Build (α : Type) := Except Fault α

/-- `TaskRep`, definition_ser.go lines 42-48. `activity` is the reference of the activity
configuration (`none`: no `activity` given); everything else of it is opaque. -/
structure TaskRep where
  id : TaskId
  type : String := ""
  name : String := ""
  settings : AMap String Val := []
  activity : Option String := none

/-- `LinkRep`, definition_ser.go lines 51-58. -/
structure LinkRep where
  type : String := ""
  name : String := ""
  to : TaskId
  src : TaskId
  label : String := ""
  value : String := ""
  deriving DecidableEq, Repr

/-- `ErrorHandlerRep`, definition_ser.go lines 36-39. -/
structure HandlerRep where
  tasks : List TaskRep
  links : List LinkRep := []

/-- `DefinitionRep`, definition_ser.go lines 25-33, without the metadata. Simplification: entries of the lists
are never nil. -/
structure DefRep where
  name : String
  modelId : String := ""
  explicitReply : Bool := false
  tasks : List TaskRep
  links : List LinkRep := []
  handler : Option HandlerRep := none

/-- What an activity reports about itself: `Details.IsReturn || Details.IsReply`, definition_ser.go line 185. -/
structure ActInfo where
  replies : Bool := false
  kind : ActKind := .user
  outputs : List String := []

/-- Code outside `definition_ser.go`. -/
structure SerEnv where
  /-- `flowutil.IsValidTaskType` -/
  validType : String → String → Bool
  /-- `ef.NewExpr`: `some msg` if the expression does not compile -/
  newExpr : String → Option String
  /-- `coerce.ToObject` -/
  toObject : Val → Except String (AMap String Val)
  /-- `coerce.ToInt` -/
  toInt : Val → Except String Int
  /-- `v, _ := coerce.ToBool(…)` -/
  toBool : Val → Bool
  /-- `resolve.Resolve(…, nil)` of the core library -/
  resolve : String → Except String Val
  /-- `mf.NewMapper`: `some msg` on failure -/
  mapper : AMap String Val → Option String
  /-- `createActivityConfig`, definition_ser.go lines 195-377 (opaque) -/
  activity : TaskRep → String → Except String ActInfo

/-- What a loop iterates on: a compiled expression or a constant, definition_ser.go lines 563-577. -/
inductive IterOn
  | expr (s : String)
  | const (v : Val)

/-- `LoopConfig`, definition/definition.go lines 257-263. Expressions are kept as their source. -/
structure LoopConf where
  condition : Option String := none
  accumulate : Bool := false
  delay : Int := 0
  iterateOn : Option IterOn := none
  applyOutput : Bool := false

/-- `if s[0] == '=' { s = s[1:] }`; `none` if `s` is empty (index out of range). -/
def stripEq (s : String) : Option String :=
  match s.toList with
  | [] => none
  | c :: r => some (if c = '=' then String.ofList r else s)

/-- `len(s) > 0 && s[0] == '='`, and the rest of the string, definition_ser.go lines 466, 488, 582. -/
def exprBody (s : String) : Option String :=
  match s.toList with
  | '=' :: r => some (String.ofList r)
  | _ => none

/-- `ef.NewExpr(s)` with the error wrapped. -/
def compile (env : SerEnv) (what s : String) : Build String :=
  match env.newExpr s with
  | none => .ok s
  | some m => .error (.err (what ++ m))

/-- The condition, definition_ser.go lines 544-555: absent or the empty string is no condition, a value that is
not a string panics. -/
def readCondition (env : SerEnv) : Option Val → Build (Option String)
  | none => .ok none
  | some (.str s) =>
    match stripEq s with
    | none => .ok none
    | some b => (compile env "compile loop condition error: " b).map some
  | some _ => .error .panic

/-- The value to iterate on, definition_ser.go lines 563-577; the empty string panics. -/
def readIterateOn (env : SerEnv) : Option Val → Build (Option IterOn)
  | none => .ok none
  | some .null => .ok none
  | some (.str s) =>
    match stripEq s with
    | none => .error .panic
    | some b => (compile env "compile iterateOn error: " b).map (fun e => some (.expr e))
  | some v => .ok (some (.const v))

/-- `iterateOn`, or the deprecated `iterate` if it is absent or nil, definition_ser.go lines 557-561. -/
def iterateSetting (m : AMap String Val) : Option Val :=
  match m.get? "iterateOn" with
  | none => m.get? "iterate"
  | some .null => m.get? "iterate"
  | some v => some v

/-- `delayInt, err := coerce.ToInt(delay)`, definition_ser.go lines 588-592. -/
def delayOf (env : SerEnv) (v : Val) : Build Int :=
  match env.toInt v with
  | .ok n => .ok n
  | .error _ => .error (.err "loop delay must be int")

/-- The delay, definition_ser.go lines 579-593. -/
def readDelay (env : SerEnv) : Option Val → Build Int
  | none => .ok 0
  | some .null => .ok 0
  | some (.str s) =>
    match exprBody s with
    | none => delayOf env (.str s)
    | some b =>
      match env.resolve b with
      | .error m => .error (.err m)
      | .ok v => delayOf env v
  | some v => delayOf env v

/-- `if accumulateOutput, ok := …; ok { …, _ = coerce.ToBool(…) }`, definition_ser.go lines 595-598. -/
def readAccumulate (env : SerEnv) : Option Val → Bool
  | none => false
  | some v => env.toBool v

/-- `if loopConf.condition == nil && loopConf.iterateOn == nil { return nil, nil }`, lines 600-603. -/
def LoopConf.orNil (c : LoopConf) : Option LoopConf :=
  if c.condition.isNone && c.iterateOn.isNone then none else some c

/-- `getLoopCfgDef`, definition_ser.go lines 543-604, on the converted settings. -/
def loopOf (env : SerEnv) (m : AMap String Val) : Build (Option LoopConf) := do
  let c ← readCondition env (m.get? "condition")
  let i ← readIterateOn env (iterateSetting m)
  let d ← readDelay env (m.get? "delay")
  return LoopConf.orNil
    { condition := c, iterateOn := i, delay := d, accumulate := readAccumulate env (m.get? "accumulate") }

/-- `getLoopCfgDef`, definition_ser.go lines 537-604. -/
def loopCfgDef (env : SerEnv) (v : Val) : Build (Option LoopConf) :=
  match env.toObject v with
  | .error m => .error (.err m)
  | .ok m => loopOf env m

/-- The override of `accumulate` next to `doWhile`, definition_ser.go lines 518-520. -/
def outerAccumulate (env : SerEnv) (settings : AMap String Val) (c : LoopConf) : LoopConf :=
  match settings.get? "accumulate" with
  | none => c
  | some v => { c with accumulate := env.toBool v }

/-- `getLoopCfg` without the last step, definition_ser.go lines 514-523. -/
def rawLoopCfg (env : SerEnv) (settings : AMap String Val) : Build (Option LoopConf) :=
  match settings.get? "loopConfig" with
  | some v => loopCfgDef env v
  | none =>
    match settings.get? "doWhile" with
    | some v => (loopCfgDef env v).map (fun o => o.map (outerAccumulate env settings))
    | none => loopCfgDef env (.obj settings)

/-- `getLoopCfg`, definition_ser.go lines 509-535. -/
def loopCfg (env : SerEnv) (settings : AMap String Val) (typ : String) : Build (Option LoopConf) :=
  (rawLoopCfg env settings).map fun o =>
    o.map fun c => if typ = "doWhile" then { c with applyOutput := true } else c

/-- A retry number: an expression or an integer, definition_ser.go lines 463-483 and 485-504. -/
inductive RetryNum
  | expr (s : String)
  | const (n : Int)
  deriving DecidableEq, Repr

/-- `retryOnErrConfig`, definition/definition.go lines 288-291. -/
structure RetryConf where
  count : Option RetryNum := none
  interval : Option RetryNum := none
  deriving DecidableEq, Repr

def retryInt (env : SerEnv) (what : String) (v : Val) : Build (Option RetryNum) :=
  match env.toInt v with
  | .ok n => .ok (some (.const n))
  | .error _ => .error (.err ("retryOnError " ++ what ++ " must be int"))

/-- One of the two retry numbers, definition_ser.go lines 463-483 and 485-504. -/
def readRetry (env : SerEnv) (what msg : String) : Option Val → Build (Option RetryNum)
  | none => .ok none
  | some .null => .ok none
  | some (.str s) =>
    match exprBody s with
    | some b => (compile env msg b).map (fun e => some (.expr e))
    | none => retryInt env what (.str s)
  | some v => retryInt env what v

/-- `getRetryOnErrCfg`, definition_ser.go lines 450-507. -/
def retryCfg (env : SerEnv) (settings : AMap String Val) : Build (Option RetryConf) :=
  match settings.get? "retryOnError" with
  | none => .ok none
  | some v =>
    match env.toObject v with
    | .error m => .error (.err m)
    | .ok m => do
      let c ← readRetry env "count" "compile retry on error condition error: " (m.get? "count")
      let i ← readRetry env "interval" "compile retry on error condition error: " (m.get? "interval")
      return some { count := c, interval := i }

/-- `Count` and `Interval` of the retry configuration, definition/definition.go lines 294-324: nothing means 0, an expression is
evaluated in the scope of the task (`ev`). -/
def retryValue (env : SerEnv) (ev : String → Except String Val) : Option RetryNum → Except String Int
  | none => .ok 0
  | some (.const n) => env.toInt (.int n)
  | some (.expr s) =>
    match ev s with
    | .error m => .error m
    | .ok v => env.toInt v

/-- `Task` while the definition is built, definition/definition.go lines 355-372: the description it was made from,
its configuration and the links attached so far. -/
structure BTask where
  rep : TaskRep
  loop : Option LoopConf
  retry : Option RetryConf
  act : Option ActInfo
  fromLinks : List LinkDef := []
  toLinks : List LinkDef := []

/-- `createTask`, definition_ser.go lines 146-193, except for `def.explicitReply`. -/
def createTask (env : SerEnv) (modelId : String) (r : TaskRep) : Build BTask :=
  if r.type ≠ "" ∧ env.validType modelId r.type = false then
    .error (.err ("Unsupported task type: " ++ r.type))
  else do
    let l ← loopCfg env r.settings r.type
    let rt ← retryCfg env r.settings
    match env.mapper r.settings with
    | some m => .error (.err m)
    | none =>
      match r.activity with
      | none => return { rep := r, loop := l, retry := rt, act := none }
      | some ref =>
        match env.activity r ref with
        | .error m => .error (.err m)
        | .ok a => return { rep := r, loop := l, retry := rt, act := some a }

/-- The tasks built so far, by identifier. -/
abbrev Tasks := AMap TaskId BTask

/-- The loop over task descriptions, definition_ser.go lines 78-85 and 117-124: a later task with the same
identifier replaces an earlier one. -/
def createTasks (env : SerEnv) (modelId : String) : List TaskRep → Tasks → Build Tasks
  | [], m => .ok m
  | r :: rs, m => do
    let t ← createTask env modelId r
    createTasks env modelId rs (m.set r.id t)

/-- The type of a link, definition_ser.go lines 402-425. -/
def linkType (env : SerEnv) (r : LinkRep) : Build LinkType :=
  if r.type = "" ∨ r.type = "default" ∨ r.type = "dependency" ∨ r.type = "0" then .ok .dependency
  else if r.type = "expression" ∨ r.type = "1" then
    if r.value = "" then .error (.err "expression value not set on link")
    else (compile env "invalid expression: " r.value).map (fun _ => .expression)
  else if r.type = "label" ∨ r.type = "2" then .ok .label
  else if r.type = "error" ∨ r.type = "3" then .ok .error
  else if r.type = "exprOtherwise" ∨ r.type = "4" then .ok .otherwise
  else .ok .dependency

/-- `link.toTask.fromLinks = append(link.toTask.fromLinks, link)`, definition_ser.go line 442. -/
def addFrom (m : Tasks) (t : TaskId) (l : LinkDef) : Tasks :=
  match m.get? t with
  | none => m
  | some b => m.set t { b with fromLinks := b.fromLinks ++ [l] }

/-- `link.fromTask.toLinks = append(link.fromTask.toLinks, link)`, definition_ser.go line 445. -/
def addTo (m : Tasks) (t : TaskId) (l : LinkDef) : Tasks :=
  match m.get? t with
  | none => m
  | some b => m.set t { b with toLinks := b.toLinks ++ [l] }

/-- `createLink`, definition_ser.go lines 396-448. The tasks are updated in place. -/
def createLink (env : SerEnv) (m : Tasks) (r : LinkRep) (id : LinkId) : Build (LinkDef × Tasks) := do
  let ty ← linkType env r
  if (m.get? r.to).isNone then
    .error (.err ("ToTask '" ++ r.to ++ "' not found"))
  else if (m.get? r.src).isNone then
    .error (.err ("FromTask '" ++ r.src ++ "' not found"))
  else
    let l : LinkDef := { id := id, src := r.src, dst := r.to, type := ty, label := r.label }
    return (l, addTo (addFrom m r.to l) r.src l)

/-- The loop over link descriptions, definition_ser.go lines 90-105 and 129-138: the identifier of a link is its
position plus an offset. -/
def createLinks (env : SerEnv) : List LinkRep → LinkId → Tasks → AMap LinkId LinkDef →
    Build (Tasks × AMap LinkId LinkDef)
  | [], _, m, ls => .ok (m, ls)
  | r :: rs, id, m, ls => do
    let (l, m') ← createLink env m r id
    createLinks env rs (id + 1) m' (ls.set l.id l)

/-- `Definition` and `ErrorHandler` as built: tasks and links by identifier. -/
structure BGraph where
  tasks : Tasks
  links : AMap LinkId LinkDef

/-- The result of `NewDefinition`. -/
structure BDef where
  name : String
  modelId : String
  explicitReply : Bool
  main : BGraph
  handler : Option BGraph

/-- Tasks, then links, definition_ser.go lines 76-106 and 115-139. -/
def createGraph (env : SerEnv) (modelId : String) (ts : List TaskRep) (ls : List LinkRep) (offset : LinkId) :
    Build BGraph := do
  let m ← createTasks env modelId ts []
  let (m', links) ← createLinks env ls offset m []
  return { tasks := m', links := links }

/-- The error handler, definition_ser.go lines 108-141. -/
def createHandler (env : SerEnv) (rep : DefRep) : Build (Option BGraph) :=
  match rep.handler with
  | none => .ok none
  | some h => (createGraph env rep.modelId h.tasks h.links rep.links.length).map some

/-- Does the activity of a task reply or return? definition_ser.go line 185. -/
def repReplies (env : SerEnv) (r : TaskRep) : Bool :=
  match r.activity with
  | none => false
  | some ref =>
    match env.activity r ref with
    | .ok a => a.replies
    | .error _ => false

/-- `def.explicitReply`, definition_ser.go lines 72 and 185-187: set by the description or by any task with an
activity that replies. -/
def explicitReply (env : SerEnv) (rep : DefRep) : Bool :=
  rep.explicitReply || rep.tasks.any (repReplies env) ||
    (match rep.handler with
     | none => false
     | some h => h.tasks.any (repReplies env))

/-- `NewDefinition`, definition_ser.go lines 62-144, before the panic handler. -/
def build (env : SerEnv) (rep : DefRep) : Build BDef := do
  let main ← createGraph env rep.modelId rep.tasks rep.links 0
  let handler ← createHandler env rep
  return { name := rep.name, modelId := rep.modelId, explicitReply := explicitReply env rep, main, handler }

/-- `NewDefinition` with `support.HandlePanic`, definition_ser.go line 64. -/
def newDefinition (env : SerEnv) (rep : DefRep) : Except String BDef :=
  match build env rep with
  | .ok d => .ok d
  | .error (.err m) => .error m
  | .error .panic => .error "Unhandled error while NewDefinition"

/-! ### The definition as the engine model uses it -/

/-- Task types of the simple model, `model/simple/model.go` lines 15-22; other types do not occur in it. -/
def taskKind (typ : String) : TaskKind :=
  if typ = "iterator" then .iterator else if typ = "doWhile" then .doWhile else .basic

/-- A built task as the engine model sees it. -/
def BTask.toTask (b : BTask) : TaskDef :=
  { id := b.rep.id, name := b.rep.name, kind := taskKind b.rep.type
    loop := b.loop.map fun c =>
      { accumulate := c.accumulate, applyOutput := c.applyOutput, hasCondition := c.condition.isSome }
    retry := b.retry.isSome
    act := (b.act.map (·.kind)).getD .user
    outputs := (b.act.map (·.outputs)).getD [] }

/-- The built graph as the engine model sees it: tasks and links in some order. -/
def BGraph.toGraph (g : BGraph) : Graph :=
  { tasks := g.tasks.map (fun p => p.2.toTask), links := g.links.map (·.2) }

/-- The built definition as the engine model sees it. -/
def BDef.toDef (d : BDef) : Def :=
  { name := d.name, main := d.main.toGraph, eh := d.handler.map BGraph.toGraph }

end Flow.Ser
