import Verif.Proofs.ConcFlow
import Verif.Proofs.ConcOnce
import Verif.Props.Concurrent
import Verif.Proofs.ConcBegin

/-
C69-C72, C44: what the events of a flow say in concurrent mode, for all interleavings.
-/

namespace Flow

open Spec Conc

/-! ### C69 -/

/-- C69: in concurrent mode, whatever the interleaving, the events are in order: a task becomes ready only when all incoming
links are decided and one is followed, and so on (`TraceOK`, see Spec/Trace.lean). -/
theorem C69_order {prio : Bool} {d : Def} {uri : String} {s : St} (h : Reach prio d uri s) : TraceOK d s.inst.trace := by
  have := TrOK.reach h
  rw [← this.defn]
  exact this.ok.trace

/-- C69: a goroutine executes only tasks that became ready before. -/
theorem C69_ready {prio : Bool} {d : Def} {uri : String} {s s' : St} (h : Reach prio d uri s) {g : Nat} {r : Res}
    (hs : step prio s (.exec g r) = some s') :
    ∃ o t, .taskStatus o t .ready ∈ s.inst.trace ∧ .taskStatus o t .entered ∈ s.inst.trace := by
  unfold step exec at hs
  dsimp only at hs
  split at hs
  · rename_i o rest hg
    obtain ⟨ob, _, hr⟩ := (TrOK.reach h).frames g (.run o) (by rw [hg]; exact List.mem_cons_self ..)
    refine ⟨o, ob.task, hr, ?_⟩
    obtain ⟨post, pre, hp⟩ := List.append_of_mem hr
    have := ((C69_order h).at hp).2
    rw [hp]
    exact List.mem_append_right _ (List.mem_cons_of_mem _ this)
  · cases hs

/-- The status changes of the tasks that a trace records, oldest first. -/
def statusChanges (tr : List Flow.Ev) : List (TaskId × TaskStatus) :=
  tr.reverse.filterMap (fun ev => match ev with
    | .taskStatus _ t st => some (t.id, st)
    | _ => none)

/-- The hypotheses hold for a run in which two goroutines work at the same time. -/
example : ∃ s, Reach true joinDef "u" s ∧ (s.gs 1).length = 1 ∧ (s.gs 2).length = 1 ∧ (step true s (.exec 2 allTrue)).isSome ∧
    statusChanges s.inst.trace = [("A", .entered), ("A", .ready), ("B", .entered), ("B", .ready)] :=
  ⟨_, reach_runs (joinLabels.take 10) .init rfl, by decide +kernel, by decide +kernel, by decide +kernel, by decide +kernel⟩

/-! ### C71, first part -/

theorem no_pop {prio : Bool} {s : St} (h : s.inst.status ≠ .active) (g : Nat) : step prio s (.pop g) = none := by
  show pop s g = none
  unfold pop
  split
  · rfl
  · rw [if_neg (fun hc => h hc.1)]

/-- C71, as far as it holds: a flow that is no longer active never becomes active again, and no further work item is taken.
Missing: it can change from completed to failed, see `C71_negation`, and it can complete twice, see `C71_negation_twice`. -/
theorem C71_over_partial {prio : Bool} {d : Def} {uri : String} {s s' : St} (h : Reach prio d uri s) (hf : s.inst.status ≠ .active)
    (hl : Later prio s s') : lastFlow s'.inst.trace ≠ .active ∧ ∀ g, step prio s' (.pop g) = none := by
  have key : Reach prio d uri s' ∧ s'.inst.status ≠ .active := by
    induction hl with
    | refl => exact ⟨h, hf⟩
    | step _ hs ih =>
      refine ⟨.step ih.1 hs, ?_⟩
      rcases (step_status hs).1 with h2 | h2 | ⟨h2, _⟩
      · rw [h2]; exact ih.2
      · rw [h2]; decide +kernel
      · rw [h2]; decide +kernel
  exact ⟨by rw [← (TrOK.reach key.1).ok.mirror.flow]; exact key.2, no_pop key.2⟩

/-! ### C70 -/

/-- C70, as far as it holds: a flow completes only if an activity returned explicitly, or if all tasks of the task table have
ended. Missing: tasks that have not been entered yet although a link to them is followed, see `C70_negation`. -/
theorem C70_completed_partial {prio : Bool} {d : Def} {uri : String} {s s' : St} {ls : List Label} {l : Label}
    (h : runs prio (init d uri) ls = some s) (hs : step prio s l = some s') (h0 : s.inst.status ≠ .completed)
    (h1 : s'.inst.status = .completed) :
    (∃ g ev, Label.exec g (.done ev true) ∈ ls) ∨ ∀ k o, liveTask s'.inst.trace k = some o →
      lastStatus s'.inst.trace o = .done ∨ lastStatus s'.inst.trace o = .failed ∨ lastStatus s'.inst.trace o = .skipped := by
  rcases (step_status hs).1 with h2 | h2 | ⟨_, he, h2 | h2⟩
  · rw [h2] at h1; exact absurd h1 h0
  · rw [h2] at h1; cases h1
  · right
    intro k o hl
    rw [he] at hl ⊢
    exact allDone_ended (TrOK.reach (reach_runs ls .init h)).ok h2 hl
  · rcases force_runs ls h h2 with h3 | h3
    · cases h3
    · exact .inl h3

/-- A → B, and C. -/
def earlyDef : Def := { name := "f", main := ⟨[tk "A", tk "B", tk "C"], deps 0 [("A", "B")]⟩ }

/-- A finished and follows its link; before it enters B, C finishes. -/
def earlyLabels : List Label :=
  nexts 0 8 ++ [.pop 1, .pop 2, .exec 1 allTrue] ++ nexts 1 3 ++ [.exec 2 allTrue, .next 2, .next 2]

/-- The hypotheses hold: C completes a flow. -/
example : ∃ s s', runs true (init earlyDef "u") (earlyLabels.take 16) = some s ∧ step true s (.next 2) = some s' ∧
    s.inst.status ≠ .completed ∧ s'.inst.status = .completed ∧
    (s'.inst.tasks.map (·.1)) = ["A", "C"] :=
  ⟨_, _, rfl, rfl, by decide +kernel, by decide +kernel, by decide +kernel⟩

/-- C70 fails: the flow is completed although the link from A to B is followed and B was not executed; B becomes ready
afterwards, and nothing can happen any more. -/
theorem C70_negation : ∃ s s', Reach true earlyDef "u" s ∧ s.inst.status = .completed ∧ lastLink s.inst.trace 0 = .true ∧
    runs true s (nexts 2 1 ++ nexts 1 7) = some s' ∧ s'.inst.status = .completed ∧
    statusChanges s'.inst.trace = [("A", .entered), ("A", .ready), ("C", .entered), ("C", .ready), ("A", .done), ("C", .done),
      ("B", .entered), ("B", .ready)] ∧ ∀ l, step true s' l = none := by
  refine ⟨_, _, reach_runs earlyLabels .init rfl, by decide +kernel, by decide +kernel, rfl, by decide +kernel, by decide +kernel, fun l => ?_⟩
  cases l with
  | pop g => exact no_pop (by decide +kernel) g
  | exec g r =>
    match g with
    | 0 => rfl
    | 1 => rfl
    | 2 => rfl
    | g + 3 => rfl
  | next g =>
    match g with
    | 0 => rfl
    | 1 => rfl
    | 2 => rfl
    | g + 3 => rfl

/-! ### C71 -/

/-- The hypotheses hold for the flow that completed early. -/
example : ∃ s s', Reach true earlyDef "u" s ∧ s.inst.status ≠ .active ∧ Later true s s' ∧ s'.queue = [2] :=
  ⟨_, _, reach_runs earlyLabels .init rfl, by decide +kernel,
    (((((((Later.refl).step (l := .next 1) rfl).step (l := .next 1) rfl).step (l := .next 1) rfl).step (l := .next 1) rfl).step
      (l := .next 1) rfl).step (l := .next 1) rfl), by decide +kernel⟩

/-- Two start tasks. -/
def pairDef : Def := { name := "f", main := ⟨[tk "A", tk "C"], []⟩ }

/-- The status changes of the flow that a trace records, oldest first. -/
def flowChanges (tr : List Flow.Ev) : List FlowStatus :=
  tr.reverse.filterMap (fun ev => match ev with
    | .flowStatus st => some st
    | _ => none)

/-- C71 fails: C fails; before that becomes a failure of the flow, A finishes and completes it; then the flow fails. -/
theorem C71_negation : ∃ s, Reach true pairDef "u" s ∧ flowChanges s.inst.trace = [.active, .completed, .failed] :=
  ⟨_, reach_runs (nexts 0 8 ++ [.pop 1, .pop 2, .exec 2 .error, .exec 1 allTrue] ++ nexts 1 2 ++ nexts 2 1) .init rfl, by decide +kernel⟩

/-- C71 fails: A and C finish at the same time; the flow completes twice. -/
theorem C71_negation_twice : ∃ s, Reach true pairDef "u" s ∧ flowChanges s.inst.trace = [.active, .completed, .completed] :=
  ⟨_, reach_runs (nexts 0 8 ++ [.pop 1, .pop 2, .exec 1 allTrue, .exec 2 allTrue] ++ nexts 1 2 ++ nexts 2 2) .init rfl, by decide +kernel⟩

/-- Two start tasks, and an error handler. -/
def pairHandler : Def := { name := "f", main := ⟨[tk "A", tk "C"], []⟩, eh := some ⟨[tk "H"], []⟩ }

/-- C71 fails: C fails, A completes the flow; then the error handler starts, and its task becomes ready, but is not executed. -/
theorem C71_negation_handler : ∃ s, Reach true pairHandler "u" s ∧ s.inst.status = .completed ∧
    statusChanges s.inst.trace = [("A", .entered), ("A", .ready), ("C", .entered), ("C", .ready), ("C", .failed), ("A", .done),
      ("H", .entered), ("H", .ready)] ∧ ∀ l, step true s l = none := by
  refine ⟨_, reach_runs (nexts 0 8 ++ [.pop 1, .pop 2, .exec 2 .error, .exec 1 allTrue] ++ nexts 1 3 ++ nexts 2 6) .init rfl,
    by decide +kernel, by decide +kernel, fun l => ?_⟩
  cases l with
  | pop g => exact no_pop (by decide +kernel) g
  | exec g r =>
    match g with
    | 0 => rfl
    | 1 => rfl
    | 2 => rfl
    | g + 3 => rfl
  | next g =>
    match g with
    | 0 => rfl
    | 1 => rfl
    | 2 => rfl
    | g + 3 => rfl

/-! ### C44 -/

/-- A and B lead to J, the second with a condition. -/
def eitherDef : Def :=
  { name := "f", main := ⟨[tk "A", tk "B", tk "J"], [⟨0, "A", "J", .dependency, ""⟩, ⟨1, "B", "J", .expression, ""⟩]⟩ }

/-- C44 fails: A finished, and while it decides its link, the link is not followed for a moment. B finishes then, its
condition is false, and J is skipped. The flow is completed, the link from A to J is followed, and J was not executed. -/
theorem C44_negation_skipped : ∃ s, Reach true eitherDef "u" s ∧ s.inst.status = .completed ∧ lastLink s.inst.trace 0 = .true ∧
    statusChanges s.inst.trace = [("A", .entered), ("A", .ready), ("B", .entered), ("B", .ready), ("A", .done), ("B", .done),
      ("J", .entered), ("J", .skipped)] :=
  ⟨_, reach_runs (nexts 0 8 ++ [.pop 1, .pop 2, .exec 1 allTrue, .next 1, .exec 2 (.done (fun _ => .ok false) false)] ++ nexts 2 6 ++
    [.next 1] ++ nexts 2 2) .init rfl, by decide +kernel, by decide +kernel, by decide +kernel⟩

/-- C44, as far as it holds: in every interleaving a joining task becomes ready only when all incoming links are decided and
one of them is followed, and its predecessors that follow a link have finished. Missing: it is executed, and once. -/
theorem C44_waits_partial {prio : Bool} {d : Def} {uri : String} {s : St} (h : Reach prio d uri s) {post pre : List Flow.Ev} {o : Nat} {t : TaskRef}
    (hs : s.inst.trace = post ++ .taskStatus o t .ready :: pre) (hj : d.fromLinks t ≠ []) :
    (∀ l ∈ d.fromLinks t, lastLink pre l.id ≠ .unset) ∧
    ∃ l ∈ d.fromLinks t, lastLink pre l.id = .true := by
  obtain ⟨⟨h1, h2⟩, _⟩ := (C69_order h).at hs
  exact ⟨h1, h2.resolve_left hj⟩

/-- The hypotheses hold for J. -/
example : ∃ s post pre o t, Reach true joinDef "u" s ∧ s.inst.trace = post ++ .taskStatus o t .ready :: pre ∧
    (joinDef.fromLinks t).length = 2 :=
  ⟨_, [], _, _, _, reach_runs (joinLabels.take 24) .init rfl, rfl, by decide +kernel⟩

/-! ### C72 -/

/-- A and B lead to J, C is on its own; there is an error handler. -/
def rejoinDef : Def :=
  { name := "f", main := ⟨[tk "A", tk "B", tk "C", tk "J"], deps 0 [("A", "J"), ("B", "J")]⟩, eh := some ⟨[tk "H"], []⟩ }

/-- A and B finish and mark their links; A enters J; then C fails and the error handler starts; then B enters J once more. -/
def rejoinLabels : List Label :=
  nexts 0 11 ++ [.pop 1, .pop 2, .pop 3, .exec 1 allTrue, .exec 2 allTrue] ++ nexts 1 3 ++ nexts 2 3 ++ nexts 1 6 ++
    [.exec 3 .error, .next 3] ++ nexts 2 6 ++ [.pop 4, .pop 5, .exec 4 allTrue, .exec 5 allTrue]

/-- C72 fails: the error handler empties the task table, but the links keep their status. So J, which was given to the work
queue by A, is entered by B as if it were new, and it is executed twice. -/
theorem C72_negation : ∃ s, Reach true rejoinDef "u" s ∧ timesEnded s.inst.trace "J" = 2 ∧
    statusChanges s.inst.trace = [("A", .entered), ("A", .ready), ("B", .entered), ("B", .ready), ("C", .entered), ("C", .ready),
      ("A", .done), ("B", .done), ("J", .entered), ("J", .ready), ("C", .failed), ("J", .entered), ("J", .ready), ("J", .done), ("J", .done)] :=
  ⟨_, reach_runs rejoinLabels .init rfl, by decide +kernel, by decide +kernel⟩

/-- C72, as far as it holds: if there is only one way to enter each task, a task ends at most once, in every interleaving.
Missing: tasks with several incoming links. -/
theorem C72_tree_partial {prio : Bool} {d : Def} {uri : String} {s : St} (h : Reach prio d uri s) (he : ∀ k, entrances d k ≤ 1) (k : TaskId) :
    timesEnded s.inst.trace k ≤ 1 := by
  have := (OnceOK.reach he h).one k 0
  unfold toks at this
  omega

/-- The hypotheses hold for the flow with the error handler. -/
example : (∀ k, entrances pairHandler k ≤ 1) ∧ ∃ s, Reach true pairHandler "u" s ∧ timesEnded s.inst.trace "C" = 1 := by
  refine ⟨fun k => ?_, _, reach_runs (nexts 0 8 ++ [.pop 1, .pop 2, .exec 2 .error]) .init rfl, by decide +kernel⟩
  by_cases h1 : k = "A"
  · subst h1; decide +kernel
  by_cases h2 : k = "C"
  · subst h2; decide +kernel
  by_cases h3 : k = "H"
  · subst h3; decide +kernel
  simp [entrances, graphEntrances, pairHandler, tk, Ne.symm h1, Ne.symm h2, Ne.symm h3]

/-- C72, as far as it holds: as long as the error handler has not been started (or if there is none), a task of a well-formed
flow ends at most once, in every interleaving; whatever joins, failing tasks or cycles the flow has. Missing: after the start
of the error handler, see `C72_negation`. -/
theorem C72_before_handler_partial {prio : Bool} {d : Def} {uri : String} {s : St} (wf : WellFormed d.main) (h : Reach prio d uri s)
    (hn : s.inst.handling = false ∨ d.eh = none) (k : TaskId) : timesEnded s.inst.trace k ≤ 1 := by
  have ok := BeginOK.reach (d := d) wf h hn
  exact Nat.le_trans (ok.act.ended_le k) (ok.join.once k)

/-- C44, C72: and it begins at most once: it is given to the work queue or skipped at most once, however many predecessors
enter it and whenever they do. -/
theorem C44_once_partial {prio : Bool} {d : Def} {uri : String} {s : St} (wf : WellFormed d.main) (h : Reach prio d uri s)
    (hn : s.inst.handling = false ∨ d.eh = none) (k : TaskId) : timesBegun s.inst.trace k ≤ 1 :=
  (BeginOK.reach (d := d) wf h hn).join.once k

/-- The hypotheses hold where A and B enter J: J is executed and removed before B enters it again. -/
example : WellFormed joinDef.main ∧ ∃ s, Reach true joinDef "u" s ∧ (s.inst.handling = false ∨ joinDef.eh = none) ∧
    timesBegun s.inst.trace "J" = 1 ∧ timesEnded s.inst.trace "J" = 1 ∧ (statusChanges s.inst.trace).count ("J", .entered) = 2 := by
  refine ⟨⟨by decide, by decide, by decide, by decide⟩, _, reach_runs joinLabels .init rfl, .inr rfl, ?_⟩
  decide +kernel

/-- With the error handler of `C72_negation`, until it starts. -/
example : WellFormed rejoinDef.main ∧ ∃ s, Reach true rejoinDef "u" s ∧ (s.inst.handling = false ∨ rejoinDef.eh = none) ∧
    timesBegun s.inst.trace "J" = 1 := by
  refine ⟨⟨by decide, by decide, by decide, by decide⟩, _, reach_runs (rejoinLabels.take 28) .init rfl, .inl ?_, ?_⟩
  · decide +kernel
  · decide +kernel

/-- C73: a task of a well-formed flow without error handler becomes ready or is skipped at most once, and ends at most once, only
after that, in every interleaving and whatever the activities and links give. -/
theorem C73_once {prio : Bool} {d : Def} {uri : String} {s : St} (wf : WellFormed d.main) (hn : d.eh = none) (h : Reach prio d uri s)
    (k : TaskId) : timesBegun s.inst.trace k ≤ 1 ∧ timesEnded s.inst.trace k ≤ timesBegun s.inst.trace k :=
  have ok := BeginOK.reach (d := d) wf h (.inr hn)
  ⟨ok.join.once k, ok.act.ended_le k⟩

/-- Where A and B enter J in turn; J begins and ends. -/
example : WellFormed joinDef.main ∧ joinDef.eh = none ∧ ∃ s, Reach true joinDef "u" s ∧ timesBegun s.inst.trace "J" = 1 ∧
    timesEnded s.inst.trace "J" = 1 := by
  refine ⟨⟨by decide, by decide, by decide, by decide⟩, rfl, _, reach_runs joinLabels .init rfl, ?_⟩
  decide +kernel

end Flow
