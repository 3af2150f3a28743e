import Verif.Model.Basic

/-
The scopes through which the tasks of one flow instance read and write data: the attributes of the instance and the
working data of its task instances. instance/scopes.go, instance/taskinst.go lines 186-203, instance/instance.go
lines 237-271.
-/

namespace Flow.Scp

/-- The data of a flow instance: its attributes (`inst.attrs`), the attributes of its definition (`flowDef.GetAttr`,
definition/definition.go) and the working data of its task instances, `none` as long as it is nil. Task instances are
numbered; a task that is executed again after its release has a new number. Logging, change tracking and locks are not
modelled. -/
structure State where
  attrs : AMap String Val := []
  defaults : AMap String Val := []
  working : Nat → Option (AMap String Val) := fun _ => none

/-- `strings.HasPrefix(name, "_W.")` and `name[3:]`, scopes.go lines 15-16. Simplification: names are valid UTF-8, so that
bytes and characters of the prefix agree. -/
def workingName (n : String) : Option String :=
  if "_W.".toList.isPrefixOf n.toList then some (String.ofList (n.toList.drop 3)) else none

/-- `Instance.GetValue`, instance.go lines 237-252. -/
def getValue (s : State) (n : String) : Option Val :=
  match s.attrs.get? n with
  | some v => some v
  | none => s.defaults.get? n

/-- `Instance.SetValue`, instance.go lines 254-271. -/
def setValue (s : State) (n : String) (v : Val) : State := { s with attrs := s.attrs.set n v }

/-- `WorkingDataScope.GetValue`, scopes.go lines 14-24, and the choice of the scope in `applyInputMapper`, util.go
lines 64-70: without working data the scope is the instance. -/
def taskGet (s : State) (o : Nat) (n : String) : Option Val :=
  match s.working o with
  | none => getValue s n
  | some w =>
    match workingName n with
    | some k => w.get? k
    | none => getValue s n

/-- `WorkingDataScope.SetValue`, scopes.go lines 26-28: the parent is the instance. -/
def taskSet (s : State) (_o : Nat) (n : String) (v : Val) : State := setValue s n v

/-- `TaskInst.GetWorkingData`, taskinst.go lines 193-199, and `GetWorkingValue`, scopes.go lines 30-36. -/
def getWorking (s : State) (o : Nat) (k : String) : Option Val :=
  match s.working o with
  | none => none
  | some w => w.get? k

/-- `TaskInst.SetWorkingData`, taskinst.go lines 186-191, and `SetWorkingValue`, scopes.go lines 38-40. -/
def setWorking (s : State) (o : Nat) (k : String) (v : Val) : State :=
  { s with working := fun p => if p = o then some (((s.working o).getD []).set k v) else s.working p }

/-- A write: to the instance, through a task, to the working data of a task. -/
inductive Op
  | inst (n : String) (v : Val)
  | task (o : Nat) (n : String) (v : Val)
  | working (o : Nat) (k : String) (v : Val)

def step (s : State) : Op → State
  | .inst n v => setValue s n v
  | .task o n v => taskSet s o n v
  | .working o k v => setWorking s o k v

def run (s : State) : List Op → State
  | [] => s
  | op :: ops => run (step s op) ops

end Flow.Scp
