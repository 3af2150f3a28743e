import Verif.Model.Spans

/-
The identifier of a task instance (`TaskInst.id`, taskinst.go line 64), which task events carry (taskevents.go line 105) and
which is the tag `task_instance_id` of the spans of the task (taskinst.go lines 610-621). It is the identifier of the task, with a
number appended when the task is repeated (ind_instance.go lines 456-463).
Simplification: only the appended number is stored; `taskInstanceId` gives the text.
-/

namespace Flow

/-- The text of `TaskInst.id`, ind_instance.go lines 461 and 736. -/
def taskInstanceId (task : String) : Option Nat → String
  | none => task
  | some k => task ++ "-" ++ toString k

/-- The tracing contexts, for every task instance `TaskInst.counter` and the number in `TaskInst.id`, and for every span of a
task the number in its tag `task_instance_id`, newest first. -/
structure IdSt where
  st : SpanSt
  count : Nat → Nat → Nat := fun _ _ => 0
  num : Nat → Nat → Option Nat := fun _ _ => none
  tags : List (Nat × Option Nat) := []

namespace IdSt

/-- The span of a task is tagged with the present identifier (taskinst.go lines 325-328 and 618). Before a task is repeated its
context is forgotten; if there is one, the counter is incremented and appended (ind_instance.go lines 457-463). -/
def apply (x : IdSt) (op : SpanOp) : IdSt :=
  match op with
  | .startTask i o => { x with st := x.st.apply op, tags := (x.st.next, x.num i o) :: x.tags }
  | .dropTask i o =>
    match x.st.task i o with
    | none => { x with st := x.st.apply op }
    | some _ =>
      { x with st := x.st.apply op
               count := fun j p => if j = i ∧ p = o then x.count i o + 1 else x.count j p
               num := fun j p => if j = i ∧ p = o then some (x.count i o + 1) else x.num j p }
  | _ => { x with st := x.st.apply op }

def applyAll (x : IdSt) (ops : List SpanOp) : IdSt := ops.foldl apply x

/-- Entering a task, ind_instance.go line 736; the counter is left as it is. -/
def enter (x : IdSt) (i o : Nat) : IdSt := { x with num := fun j p => if j = i ∧ p = o then none else x.num j p }

end IdSt

/-- The task instance that the next micro step enters, ind_instance.go lines 728-736. -/
def Eng.entering (e : Eng) : Option (Nat × Nat) :=
  match e.stack with
  | .enter (x :: _) :: _ => (e.insts[e.cur]?).map (fun I => (e.cur, (I.enterTask x.task).2.1))
  | _ => none

/-- A run with identifiers of task instances. -/
structure IdRun where
  eng : Eng
  ids : IdSt

namespace IdRun

/-- One micro step; `tracing` is `trace.Enabled()`. Without tracing all contexts stay nil. -/
def step (tracing : Bool) (env : Env) (s : IdRun) : IdRun :=
  { eng := s.eng.step env
    ids := (match s.eng.entering with
      | some (i, o) => s.ids.enter i o
      | none => s.ids).applyAll (if tracing then s.eng.spanStep env else []) }

def run (tracing : Bool) (env : Env) (s : IdRun) : Nat → IdRun
  | 0 => s
  | n + 1 => step tracing env (run tracing env s n)

def init (tracing : Bool) (env : Env) (id uri : String) (d : Def) (inputs : AMap String Val) : IdRun :=
  { eng := Eng.init env id uri d inputs, ids := { st := if tracing then .init else {} } }

end IdRun

end Flow
