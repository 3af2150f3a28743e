import Verif.Proofs.ConcTerm
import Verif.Props.ConcPlain

/-
Concurrent executions end (C80).
-/

namespace Flow

open Spec Conc

/-- An evaluation that asks to be repeated: a further round of a loop, or a retry. -/
def repeats : Label → Bool
  | .exec _ .again => true
  | _ => false

theorem repeats_eq : repeats = Conc.isAgain := by
  funext l
  cases l with
  | exec g r => cases r <;> rfl
  | _ => rfl

/-- C80: a run of a flow with T tasks and L links in which the error handler was not started has at most `10 T + 4 L + 2` steps, and
two more for each evaluation that is repeated; whatever the activities do and however the goroutines are interleaved. -/
theorem C80_bound {prio : Bool} {d : Def} (wf : WellFormed d.main) {uri : String} {ls : List Label} {s : St} (h : runs prio (init d uri) ls = some s)
    (hc : .cleared ∉ s.inst.trace) : ls.length ≤ 10 * d.main.tasks.length + 4 * d.main.links.length + 2 + 2 * ls.countP repeats := by
  have hr := reach_runs ls .init h
  have h1 := runs_bound wf h hr (not_cleared hr hc)
  have h2 : agains s.log ≤ 0 + ls.countP Conc.isAgain := runs_agains ls h
  rw [repeats_eq]
  omega

/-- The labels of the first `n` steps of an infinite run. -/
theorem runs_prefix {prio : Bool} {st : Nat → St} {f : Nat → Label} (h : ∀ n, step prio (st n) (f n) = some (st (n + 1))) :
    ∀ n m, runs prio (st m) ((List.range n).map (fun i => f (m + i))) = some (st (m + n))
  | 0, _ => rfl
  | n + 1, m => by
    rw [List.range_succ_eq_map, List.map_cons, List.map_map]
    unfold runs
    have h1 := h m
    rw [show m + 0 = m from rfl, h1]
    have h2 := runs_prefix h n (m + 1)
    rw [show (fun i => f (m + i)) ∘ Nat.succ = fun i => f (m + 1 + i) from funext fun i => by
      show f (m + (i + 1)) = _
      rw [Nat.add_comm i 1, Nat.add_assoc], show m + (n + 1) = m + 1 + n by omega]
    exact h2

/-- C80: no execution goes on for ever without repeating an evaluation and without starting the error handler. -/
theorem C80_ends {prio : Bool} {d : Def} (wf : WellFormed d.main) {uri : String} : ¬ ∃ (st : Nat → St) (f : Nat → Label), st 0 = init d uri ∧
    (∀ n, step prio (st n) (f n) = some (st (n + 1))) ∧ (∀ n, repeats (f n) = false) ∧ ∀ n, .cleared ∉ (st n).inst.trace := by
  rintro ⟨st, f, h0, h, hr, hn⟩
  have h1 := runs_prefix h (10 * d.main.tasks.length + 4 * d.main.links.length + 3) 0
  rw [h0] at h1
  have h2 := C80_bound wf h1 (hn _)
  have h3 : ((List.range (10 * d.main.tasks.length + 4 * d.main.links.length + 3)).map (fun i => f (0 + i))).countP repeats = 0 := by
    rw [List.countP_eq_zero]
    intro l hl
    obtain ⟨i, _, e⟩ := List.mem_map.1 hl
    rw [← e, hr]
    exact Bool.false_ne_true
  rw [h3, List.length_map, List.length_range] at h2
  omega

/-- The hypotheses of `C80_bound` hold for a run of 50 steps; the bound is 54. -/
example : WellFormed joinDef.main ∧ ∃ s, runs true (init joinDef "u") joinLabels = some s ∧ .cleared ∉ s.inst.trace ∧
    joinLabels.length = 50 ∧ 10 * joinDef.main.tasks.length + 4 * joinDef.main.links.length + 2 = 54 ∧ joinLabels.countP repeats = 0 :=
  ⟨joinDef_wf, _, rfl, (excluded_of (by decide +kernel)).1.2, by decide, by decide, by decide⟩

/-- A task that asks to be executed again. -/
def askAgain : List Label := nexts 0 5 ++ [.pop 1, .exec 1 .again, .pop 2, .exec 2 .again, .pop 3, .exec 3 .again]

/-- Repeated evaluations have to be counted: every one of them adds two steps. -/
example : ∃ s, runs true (init skipDef "u") askAgain = some s ∧ .cleared ∉ s.inst.trace ∧ askAgain.countP repeats = 3 ∧ s.queue = [0] :=
  ⟨_, rfl, (by decide), by decide, by decide⟩

end Flow
