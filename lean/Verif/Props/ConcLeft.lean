import Verif.Proofs.ConcLeft
import Verif.Props.ConcFail

/-
No task is left out in concurrent mode (C75).
-/

namespace Flow

open Spec Conc

/-- The flow did not fail and the error handler was not started. -/
def Errorless (tr : List Flow.Ev) : Prop := .flowStatus .failed ∉ tr ∧ .cleared ∉ tr

theorem errorless_handling {prio : Bool} {d : Def} {uri : String} {s : St} (h : Reach prio d uri s) (he : Errorless s.inst.trace) :
    s.inst.handling = false := by
  induction h with
  | init => rfl
  | @step s0 s1 l hr hs ih =>
    have x := step_ext (TrOK.reach hr) hs
    have h0 := ih ⟨fun hm => he.1 (x.mem hm), fun hm => he.2 (x.mem hm)⟩
    cases hh : s1.inst.handling with
    | false => rfl
    | true =>
      obtain ⟨g, rest, _, e⟩ := step_handling hs h0 hh
      subst e
      unfold failStep at he
      rw [if_neg (by rw [h0]; exact Bool.false_ne_true)] at he
      split at he
      · exact absurd (List.mem_cons_self ..) he.2
      · exact absurd (List.mem_cons_self ..) he.1

theorem left_ok {prio : Bool} {d : Def} {uri : String} {s : St} (wf : WellFormed d.main) (h : Reach prio d uri s) (he : Errorless s.inst.trace)
    (ho : .flowStatus .completed ∉ s.inst.trace) (hend : ∀ g, s.gs g = []) : LeftOK d s :=
  LeftOK.reach wf h ⟨errorless_handling h he, fun k hk => (by rw [hend k] at hk; cases hk), ho⟩

/-- C75: the goroutines have finished. A task whose predecessors have all ended has begun: whichever predecessor came last,
and whatever they decided at the same time, the task was not overlooked. -/
theorem C75_no_lost_join {prio : Bool} {d : Def} {uri : String} {s : St} (wf : WellFormed d.main) (h : Reach prio d uri s)
    (he : Errorless s.inst.trace) (ho : .flowStatus .completed ∉ s.inst.trace) (hend : ∀ g, s.gs g = []) {t : TaskDef} (ht : t ∈ d.main.tasks)
    (hp : ∀ l ∈ d.main.links, l.dst = t.id → timesEnded s.inst.trace l.src = 1) : timesBegun s.inst.trace t.id = 1 := by
  have ok := left_ok wf h he ho hend
  have h1 := C44_once_partial wf h (.inl (errorless_handling h he)) t.id
  rcases Nat.eq_zero_or_pos (timesBegun s.inst.trace t.id) with h2 | h2
  · rcases ok.held t ht h2 with ⟨l, hl, h3⟩ | ⟨k, f, hf, _⟩
    · have h4 := mem_fromLinks.1 hl
      rw [hp l h4.1 h4.2] at h3; cases h3
    · rw [hend k] at hf; cases hf
  · omega

/-- C75: the work queue is empty and the goroutines have finished, no activity waits, there was no unhandled error and the flow
is not complete. Then every task of the flow has ended, exactly once. -/
theorem C75_all_end {prio : Bool} {d : Def} {uri : String} {s : St} (wf : WellFormed d.main) (ac : Acyclic d.main) (h : Reach prio d uri s)
    (he : Errorless s.inst.trace) (ho : .flowStatus .completed ∉ s.inst.trace) (hend : ∀ g, s.gs g = []) (hq : s.queue = [])
    (hw : ∀ o t, .taskStatus o t .waiting ∉ s.inst.trace) {t : TaskDef} (ht : t ∈ d.main.tasks) : timesEnded s.inst.trace t.id = 1 := by
  have ok := left_ok wf h he ho hend
  obtain ⟨rank, hr⟩ := ac
  suffices ∀ n, ∀ t ∈ d.main.tasks, rank t.id < n → timesEnded s.inst.trace t.id = 1 from this _ t ht (Nat.lt_succ_self _)
  intro n
  induction n with
  | zero => intro t _ h; cases h
  | succ n ih =>
    intro t ht hlt
    have hb := C75_no_lost_join wf h he ho hend ht fun l hl e => by
      obtain ⟨u, hu, hue⟩ := wf.src l hl
      have h1 := hr l hl
      rw [e] at h1
      rw [← hue]
      exact ih u hu (by rw [hue]; omega)
    have h1 := C72_before_handler_partial wf h (.inl (errorless_handling h he)) t.id
    rcases ok.act t.id (by omega) with h2 | ⟨o, h2, _⟩ | ⟨k, o, h2, _⟩ | ⟨k, o, es, h2, _⟩ | ⟨o, u, _, h2⟩
    · omega
    · rw [hq] at h2; cases h2
    · rw [hend k] at h2; cases h2
    · rw [hend k] at h2; cases h2
    · exact absurd h2 (hw o u)

/-- The events by which one sees that the flow failed, completed, started the error handler or waits. -/
def isExcluded : Flow.Ev → Bool
  | .flowStatus .failed => true
  | .flowStatus .completed => true
  | .cleared => true
  | .taskStatus _ _ .waiting => true
  | _ => false

theorem excluded_of {tr : List Flow.Ev} (h : tr.any isExcluded = false) : Errorless tr ∧ .flowStatus .completed ∉ tr ∧ ∀ o t, .taskStatus o t .waiting ∉ tr := by
  have h := List.any_eq_false.1 h
  exact ⟨⟨fun hm => h _ hm rfl, fun hm => h _ hm rfl⟩, fun hm => h _ hm rfl, fun _ _ hm => h _ hm rfl⟩

/-- The hypotheses hold at the end of the run of `C44_negation`, where A and B enter J at the same time: A, B, J and K have ended. -/
example : WellFormed joinDef.main ∧ Acyclic joinDef.main ∧ ∃ s, Reach true joinDef "u" s ∧ (Errorless s.inst.trace ∧
    .flowStatus .completed ∉ s.inst.trace ∧ ∀ o t, .taskStatus o t .waiting ∉ s.inst.trace) ∧ (∀ g, s.gs g = []) ∧ s.queue = [] := by
  refine ⟨⟨by decide, by decide, by decide, by decide⟩, ⟨fun k => if k = "J" then 1 else if k = "K" then 2 else 0, by decide⟩, _,
    reach_runs joinLabels .init rfl, excluded_of (by decide +kernel), fun g => ?_, by decide +kernel⟩
  match g with
  | 0 => rfl
  | 1 => rfl
  | 2 => rfl
  | 3 => rfl
  | 4 => rfl
  | g + 5 => rfl

/-- The hypotheses of `C75_no_lost_join` hold while K is still in the work queue. -/
example : ∃ s, Reach true joinDef "u" s ∧ (Errorless s.inst.trace ∧ .flowStatus .completed ∉ s.inst.trace ∧
    ∀ o t, .taskStatus o t .waiting ∉ s.inst.trace) ∧ (∀ g, s.gs g = []) ∧ s.queue = [3] ∧ timesEnded s.inst.trace "J" = 1 ∧ timesEnded s.inst.trace "K" = 0 := by
  refine ⟨_, reach_runs (joinLabels.take 43) .init rfl, excluded_of (by decide +kernel), fun g => ?_, by decide +kernel, by decide +kernel, by decide +kernel⟩
  match g with
  | 0 => rfl
  | 1 => rfl
  | 2 => rfl
  | 3 => rfl
  | g + 4 => rfl

end Flow
