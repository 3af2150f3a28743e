import Verif.Model.Engine

/-
The option `FLOGO_TASK_PROPAGATE_SKIP`: support/env.go lines 70-80 reads it, model/simple/taskbehavior.go line 17 stores it in
the package variable `propagateSkip`, `Skip` reports it (lines 309-344), and `handleTaskDone` (instance/ind_instance.go lines
480-485 and 562) then follows the skipped successors at once, without the work queue. This module repeats the engine with
the option as a parameter.
-/

namespace Flow

/-- The third result of `Skip`. Line 309 declares a result named `propagateSkip`, which hides the package variable of the
same name; no statement assigns it, so lines 336 and 343 return its initial value. `pkg` is the package variable. -/
def skipPropagates (_pkg : Bool) : Bool :=
  let propagateSkip := false
  propagateSkip

/-- The loop of `propagateSkip`, ind_instance.go lines 583-599; the first argument bounds the depth of the recursion. A
successor that becomes ready is entered but not scheduled. -/
def propagateLoop : Nat → Inst → List TaskEntry → Bool → Inst × Bool
  | 0, I, _, n => (I, n)
  | _ + 1, I, [], n => (I, n)
  | k + 1, I, x :: xs, n =>
    match I.enterTask x.task with
    | (J, o, .skip) =>
      match J.skipTask o x.task with
      | (J1, []) => propagateLoop k J1 xs true
      | (J1, es) =>
        match propagateLoop k J1 es false with
        | (J2, b) => propagateLoop k J2 xs (n || b)
    | (J, _, _) => propagateLoop k J xs n

/-- `propagateSkip`, ind_instance.go lines 576-602. -/
def propagate (fuel : Nat) (I : Inst) (es : List TaskEntry) : Inst × Bool :=
  if es.isEmpty then (I, true) else propagateLoop fuel I es false

namespace Eng

/-- `handleTaskDone` for a skipped task, ind_instance.go lines 480-485 and 501-573. -/
def taskSkippedOpt (pkg : Bool) (fuel : Nat) (e : Eng) (i o : Nat) (rest : List Frame) : Eng :=
  match e.insts[i]? with
  | none => e
  | some I =>
    match I.objs[o]? with
    | none => { e with stack := rest }
    | some ob =>
      match I.skipTask o ob.task with
      | (I1, es) =>
        if skipPropagates pkg then
          (e.modI i (fun _ => (propagate fuel I1 es).1)).finishTask i ob.task (propagate fuel I1 es).2 [] rest
        else (e.modI i (fun _ => I1)).finishTask i ob.task ((I.defn.toLinks ob.task).length = 0) es rest

/-- `Eng.enterEntry` with the option. -/
def enterEntryOpt (pkg : Bool) (fuel : Nat) (env : Env) (e : Eng) (x : TaskEntry) (xs : List TaskEntry) (rest : List Frame) : Eng :=
  match e.insts[e.cur]? with
  | none => { e with stack := rest }
  | some I =>
    let o := (I.enterTask x.task).2.1
    let e1 := e.modI e.cur (fun _ => (I.enterTask x.task).1)
    match (I.enterTask x.task).2.2 with
    | .notReady => { e1 with stack := .enter xs :: rest }
    | .eval =>
      if env.settingsOk e1 e.cur o then { e1.schedule e.cur o with stack := .enter xs :: rest }
      else { e1 with stack := rest }
    | .skip => e1.taskSkippedOpt pkg fuel e.cur o (.enter xs :: rest)

/-- `Eng.step` with the option. -/
def stepOpt (pkg : Bool) (fuel : Nat) (env : Env) (e : Eng) : Eng :=
  match e.stack with
  | [] => e.doStep env
  | .enter [] :: rest => { e with stack := rest }
  | .enter (x :: xs) :: rest => e.enterEntryOpt pkg fuel env x xs rest
  | .release t :: rest => { e.modI e.cur (fun I => I.release t) with stack := rest }

/-- The states of a run with the option. -/
def runOpt (pkg : Bool) (fuel : Nat) (env : Env) (e : Eng) : Nat → Eng
  | 0 => e
  | n + 1 => stepOpt pkg fuel env (runOpt pkg fuel env e n)

end Eng

end Flow
