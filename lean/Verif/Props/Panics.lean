import Verif.Proofs.Panics
import Verif.Props.Errors
import Verif.Props.Graph

/-
C110: failures of a task outside of its activity.
-/

namespace Flow
open Spec
open GraphCase (tasksEvaluated)

variable {env : Env}

/-- What holds of C110: if the conditions of all do-while loops are truth values or cannot be computed, every evaluation of a task with an
error link ends in one of four ways: the task is done, it waits, it begins the next round of its loop, or it fails, and then exactly its
error links are followed, the flow does not fail and its error handler is not started.

Missing: conditions that are no truth values (`C110_negation`). -/
theorem C110_caught_partial {e e' : Eng} {i o : Nat} {t : TaskRef} {r : Eng.EvalOut} {I : Inst} (hr : Reachable env e) (hI : e.insts[i]? = some I)
    (hc : ∀ f m, env.cond f i o ≠ .panic m) (h : Evaluates env e i o t e' r) (hl : hasErrorLink I.defn t) (hd : ((I.defn.toLinks t).map (·.id)).Nodup) :
    r = .res .done ∨ r = .res .wait ∨ r = .res .again ∨ ∃ err J, r = .err err ∧ (e.step env).insts[i]? = some J ∧ J.status = I.status ∧
      J.handling = I.handling ∧ (∀ l ∈ I.defn.toLinks t, lastLink J.trace l.id = if l.type = .error then .true else .false) ∧
      ∃ es, (e.step env).stack = [.enter es, .release t] ∧ (es.map (·.task)).Perm ((I.defn.toLinks t).map (fun l => ⟨t.eh, l.dst⟩)) := by
  rcases Eng.evaluates_results h with h1 | h1 | h1 | ⟨err, rfl⟩ | ⟨m, rfl⟩
  · exact .inl h1
  · exact .inr (.inl h1)
  · exact .inr (.inr (.inl h1))
  · obtain ⟨J, es, h1, h2, h3, _, _, h6, h7, _, h9, _⟩ := C04_handled_locally hr hI h hl
    exact .inr (.inr (.inr ⟨err, J, rfl, h1, h2, h3, h6 hd, es, h7, h9⟩))
  · obtain ⟨_, f, _, _, _, h1⟩ := Eng.panic_source hr h
    exact absurd h1 (hc f m)

/-- C110: the only failure that escapes is a condition of a do-while loop that is no truth value. In particular the iterator of a loop never
reads beyond the data, whatever it iterates over, however its rounds end and however often they are retried. -/
theorem C110_source {e e' : Eng} {i o : Nat} {t : TaskRef} {m : String} (hr : Reachable env e) (h : Evaluates env e i o t e' (.panic m)) :
    ∃ td f, e.taskDef? i t = some td ∧ td.kind = .doWhile ∧ td.hasCondition = true ∧ env.cond f i o = .panic m :=
  Eng.panic_source hr h

/-- C110 fails for every condition that is no truth value, in every flow without an error handler: whatever error links the task has, none
of them is followed, nothing is entered, and the flow fails. -/
theorem C110_negation {e e' : Eng} {o : Nat} {t : TaskRef} {m : String} {I : Inst} (hr : Reachable env e) (hI : e.insts[0]? = some I)
    (h : Evaluates env e 0 o t e' (.panic m)) (hg : I.defn.eh = none) :
    ∃ K, (e.step env).insts[0]? = some K ∧ K.status = .failed ∧
      K.returnError = some (.plain ("unhandled Error executing task '" ++ t.id ++ "' : " ++ m)) ∧ (e.step env).stack = [] := by
  obtain ⟨⟨name, hstep⟩, hstk, _, hin⟩ := Eng.evaluates_step h
  obtain ⟨I', ob, hI', hob, hobt, hd, hh, hst, _⟩ := hin I hI
  have ha : I.status = .active := by
    have := Eng.evaluates_active h
    unfold flowStatus at this; rw [hI] at this; simpa using this
  have hnh : I'.handling = false := by
    rw [hh]
    cases hx : I.handling with
    | false => rfl
    | true => exact absurd hg (Eng.handling_reachable hr hI hx ha)
  have hs2 : e.step env = (e'.appendErrorData 0 t.id (.eval name "unhandled" ("unhandled Error executing task '" ++ t.id ++ "' : " ++ m))).globalError 0
      (.plain ("unhandled Error executing task '" ++ t.id ++ "' : " ++ m)) := by
    rw [hstep]
    unfold Eng.handleResult
    simp only [hI', hnh, Bool.false_eq_true, if_false]
  obtain ⟨J, hJ, h3, h4, _, h6⟩ := Eng.globalError_top
    (Eng.appendErrorData_self hI' t.id (.eval name "unhandled" ("unhandled Error executing task '" ++ t.id ++ "' : " ++ m))) hnh
    (by rw [← hd] at hg; exact hg) (.plain ("unhandled Error executing task '" ++ t.id ++ "' : " ++ m))
  rw [← hs2] at hJ h6
  exact ⟨J, hJ, h3, h4, h6.trans hstk⟩

/-- A is repeated while a condition holds; if it fails B is executed. -/
def rescuing : Def :=
  { name := "f", main := ⟨[{ tk "A" with kind := .doWhile, loop := some { hasCondition := true } }, tk "B"], [⟨0, "A", "B", .error, ""⟩]⟩ }

/-- The condition cannot be computed. -/
def unknownEnv : Env := { tableEnv (fun _ => {}) (fun _ => .ok true) with cond := fun _ _ _ => .err (.plain "unknown variable") }

/-- The condition is no truth value. -/
def oddEnv : Env := { tableEnv (fun _ => {}) (fun _ => .ok true) with cond := fun _ _ _ => .panic "interface conversion: interface {} is string, not bool" }

/-- C110, concretely: a condition that cannot be computed is handled by the error link; one that is no truth value makes the flow fail. -/
theorem C110_negation_link :
    (fun e => (flowStatus e 0, tasksEvaluated e)) (Eng.run unknownEnv (Eng.init unknownEnv "1" "u" rescuing []) 20) = (some .completed, ["A", "B"]) ∧
    (fun e => (flowStatus e 0, tasksEvaluated e)) (Eng.run oddEnv (Eng.init oddEnv "1" "u" rescuing []) 20) = (some .failed, ["A"]) := by decide

-- the hypotheses of `C110_caught_partial` hold at the first step, where the evaluation fails
example : ∃ e' err, Reachable unknownEnv (Eng.init unknownEnv "1" "u" rescuing []) ∧ hasErrorLink rescuing ⟨false, "A"⟩ ∧
    ((rescuing.toLinks ⟨false, "A"⟩).map (·.id)).Nodup ∧ Evaluates unknownEnv (Eng.init unknownEnv "1" "u" rescuing []) 0 0 ⟨false, "A"⟩ e' (.err err) :=
  ⟨_, _, ⟨_, _, _, _, 0, rfl⟩, ⟨⟨0, "A", "B", .error, ""⟩, by decide, rfl⟩, by decide, ⟨_, rfl, rfl, rfl, rfl⟩, rfl⟩

-- the hypotheses of `C110_source` and `C110_negation` hold at the first step, where the evaluation panics
example : ∃ e' m, Reachable oddEnv (Eng.init oddEnv "1" "u" rescuing []) ∧
    Evaluates oddEnv (Eng.init oddEnv "1" "u" rescuing []) 0 0 ⟨false, "A"⟩ e' (.panic m) ∧ rescuing.eh = none :=
  ⟨_, _, ⟨_, _, _, _, 0, rfl⟩, ⟨⟨_, rfl, rfl, rfl, rfl⟩, rfl⟩, rfl⟩

end Flow
