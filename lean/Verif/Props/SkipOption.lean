import Verif.Model.SkipOption
import Verif.Spec.Plain

/-
C51: the option for the propagation of skipped tasks.
-/

namespace Flow

open Spec

theorem taskSkippedOpt_eq (pkg : Bool) (fuel : Nat) (e : Eng) (i o : Nat) (rest : List Frame) :
    e.taskSkippedOpt pkg fuel i o rest = e.taskSkipped i o rest := by
  unfold Eng.taskSkippedOpt Eng.taskSkipped
  cases e.insts[i]? with
  | none => rfl
  | some I => cases h : I.objs[o]? <;> simp only [h, skipPropagates] <;> rfl

theorem stepOpt_eq (pkg : Bool) (fuel : Nat) (env : Env) (e : Eng) : e.stepOpt pkg fuel env = e.step env := by
  unfold Eng.stepOpt Eng.step
  cases e.stack with
  | nil => rfl
  | cons f fs =>
    cases f with
    | release t => rfl
    | enter es =>
      cases es with
      | nil => rfl
      | cons x xs =>
        show e.enterEntryOpt pkg fuel env x xs fs = e.enterEntry env x xs fs
        unfold Eng.enterEntryOpt Eng.enterEntry
        cases e.insts[e.cur]? with
        | none => rfl
        | some I =>
          dsimp only
          cases (I.enterTask x.task).2.2 with
          | notReady => rfl
          | eval => rfl
          | skip => exact taskSkippedOpt_eq ..

/-- C51: a run is the same for both settings of the option, so the same tasks are executed, the same tasks are reported as
skipped and the flow has the same status. The reason is that the option has no effect: see `skipPropagates`. -/
theorem C51_same (fuel fuel' : Nat) (env : Env) (e : Eng) (n : Nat) :
    Eng.runOpt true fuel env e n = Eng.runOpt false fuel' env e n := by
  have h : ∀ pkg fuel, Eng.runOpt pkg fuel env e n = Eng.run env e n := by
    intro pkg fuel
    induction n with
    | zero => rfl
    | succ n ih => show Eng.stepOpt _ _ _ _ = Eng.step _ _; rw [ih, stepOpt_eq]
  rw [h, h]

/-- C51: both settings give the runs of `Eng.run`, about which the other properties are stated. -/
theorem C51_run (pkg : Bool) (fuel : Nat) (env : Env) (e : Eng) (n : Nat) : Eng.runOpt pkg fuel env e n = Eng.run env e n := by
  induction n with
  | zero => rfl
  | succ n ih => show Eng.stepOpt _ _ _ _ = Eng.step _ _; rw [ih, stepOpt_eq]

/-- A → B is not followed, B → C; D joins A and C. -/
def skipChain : Def :=
  { name := "f", main := ⟨[tk "A", tk "B", tk "C", tk "D"],
      ⟨0, "A", "B", .expression, ""⟩ :: deps 1 [("B", "C"), ("A", "D"), ("C", "D")]⟩ }

/-- The conditions are false. -/
def noLinks : Env := tableEnv (fun _ => {}) (fun _ => .ok false)

/-- A run with skipped tasks: B and C are skipped and D is executed, with the option on. -/
example : ((Eng.runOpt true 9 noLinks (Eng.init noLinks "1" "u" skipChain []) 30).insts.map
      (fun I => (I.status, I.objs.map (fun x => (x.task.id, x.status))))) =
    [(.completed, [("A", .done), ("D", .done), ("B", .skipped), ("C", .skipped)])] := by
  decide

end Flow
