import Verif.Model.Basic

/-
Where the outputs of a task are stored and how they are read: the default output mapper (definition/mapper.go) and the
resolver of `$activity[...]` (definition/resolve.go).
-/

namespace Flow.Out

/-- The attribute under which output `name` of task `t` is stored, mapper.go lines 24 and 43. -/
def key (t : TaskId) (name : String) : String := "_A." ++ t ++ "." ++ name

/-- `defaultActivityOutputMapper.Apply`, mapper.go lines 34-50: the declared outputs that have a value. `declared` is
`none` for an activity without metadata. Simplification: the scope is a `SimpleScope` over the outputs without parent,
util.go line 323. -/
def defaultApply (t : TaskId) (declared : Option (List String)) (outputs : AMap String Val) : AMap String Val :=
  match declared with
  | none => []
  | some names => names.filterMap (fun n => (outputs.get? n).map (fun v => (key t n, v)))

/-- `ActivityResolver.Resolve`, resolve.go lines 54-71, over the attributes of the instance; `none` stands for the error
"failed to resolve". Attributes of the definition are left out. -/
def resolve (attrs : AMap String Val) (item value : String) : Option Val :=
  if value ≠ "" then attrs.get? (key item value) else attrs.get? ("_A." ++ item)

/-- What is stored in the attributes of an instance: the outputs of a finished task (util.go lines 306-338, the values are
stored one by one with `SetValue`), or some other attribute. -/
inductive Write
  | task (t : TaskId) (declared : Option (List String)) (outputs : AMap String Val)
  | attr (n : String) (v : Val)

def step (attrs : AMap String Val) : Write → AMap String Val
  | .task t md outs => attrs.update (defaultApply t md outs)
  | .attr n v => attrs.set n v

def run (attrs : AMap String Val) : List Write → AMap String Val
  | [] => attrs
  | w :: ws => run (step attrs w) ws

end Flow.Out
