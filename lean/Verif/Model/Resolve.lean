import Verif.Model.Engine
import Verif.Model.Outputs
import Verif.Model.Scopes

/-
What expressions refer to: the resolvers of definition/resolve.go over the scope of a task.
-/

namespace Flow.Res

/-- References in expressions: `$flow.value`, `$activity[item].value`, `$activity[item]`, `$flowctx[item]`, `$error.value`,
`$error[item].value`, `$iteration[item].field`. An absent part is the empty string, as in Go. -/
inductive Ref
  | flow (value : String)
  | activity (item value : String)
  | flowctx (item : String)
  | error (item value : String)
  | iteration (item field : String)

/-- `ErrorResolver.Resolve`, the part that finds the error object, resolve.go lines 104-118. -/
def errorKey (item : String) : String := if item = "" then "_E" else "_E." ++ item

/-- `path.GetValue(value, "."+name)` of the core library, which is not part of the repository: a parameter, except that no name
gives the value itself, resolve.go lines 119-121 and 139-143. -/
def field (path : Val → String → Option Val) (v : Val) (name : String) : Option Val :=
  if name = "" then some v else path v ("." ++ name)

/-- `Resolve` of `FlowResolver` (resolve.go lines 36-43), `ActivityResolver` (lines 54-71), `FlowContextResolver` (lines 80-88),
`ErrorResolver` (lines 101-124) and `IteratorResolver` (lines 134-144). `none` stands for the error. -/
def resolve (path : Val → String → Option Val) (scope : String → Option Val) : Ref → Option Val
  | .flow value => scope value
  | .activity item value => if value ≠ "" then scope (Out.key item value) else scope ("_A." ++ item)
  | .flowctx item => scope ("_fctx." ++ item)
  | .error item value => (scope (errorKey item)).bind (fun v => field path v value)
  | .iteration item fld =>
    (scope "_W.iteration").bind (fun v => if fld ≠ "" then path v ("." ++ item ++ "." ++ fld) else path v ("." ++ item))

/-- The working value `iteration` of a task: an object with key, value and index for an iterator (iteratorbehavior.go
lines 92-113), a struct with an index for a do-while task (dowhilebehavior.go lines 15-21 and 108-124), here an object. -/
def iterationValue (ob : Obj) : Option Val :=
  match ob.iteration with
  | some (k, v, n) => some (.obj [("key", k), ("value", v), ("index", .int n)])
  | none => ob.dwIndex.map (fun n => .obj [("index", .int n)])

/-- Does the task have working data? Set by loops and retries only. -/
def hasWorking (ob : Obj) : Bool := ob.iter.isSome || ob.iteration.isSome || ob.dwIndex.isSome || ob.retry.isSome

/-- The scope that input mappings, loop conditions and retry settings of a task see: util.go lines 64-70,
dowhilebehavior.go lines 101-106, scopes.go lines 14-24, instance.go lines 237-252. The attributes of the definition
(`flowDef.GetAttr`) are left out: nothing in the repository sets them. Simplification: the working data of the engine itself (the
iterator and the retry data) cannot be referred to. -/
def taskScope (e : Eng) (i o : Nat) (n : String) : Option Val :=
  match e.insts[i]? with
  | none => none
  | some I =>
    match I.objs[o]? with
    | none => I.attrs.get? n
    | some ob =>
      if hasWorking ob then
        match Scp.workingName n with
        | some k => if k = "iteration" then iterationValue ob else none
        | none => I.attrs.get? n
      else I.attrs.get? n

end Flow.Res
