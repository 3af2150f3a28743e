import Verif.Proofs.ConcPlain
import Verif.Props.ConcLeft

/-
Flows without conditions in concurrent mode (C79).
-/

namespace Flow

open Spec Conc

/-- No link of the graph has a condition: all are plain or labelled links. -/
def Unconditional (g : Graph) : Prop := ∀ l ∈ g.links, l.type = .dependency ∨ l.type = .label

/-- The error handler was not started: the tasks of the main flow were not removed. -/
theorem not_cleared {prio : Bool} {d : Def} {uri : String} {s : St} (h : Reach prio d uri s) (hc : .cleared ∉ s.inst.trace) :
    s.inst.handling = false ∨ d.eh = none := by
  cases hd : d.eh with
  | none => exact .inr rfl
  | some e =>
    left
    induction h with
    | init => rfl
    | @step s0 s1 l hr hs ih =>
      have x := step_ext (TrOK.reach hr) hs
      have h0 := ih fun hm => hc (x.mem hm)
      cases hh : s1.inst.handling with
      | false => rfl
      | true =>
        obtain ⟨g, rest, _, e'⟩ := step_handling hs h0 hh
        subst e'
        unfold failStep at hc
        rw [if_neg (by rw [h0]; exact Bool.false_ne_true), if_pos (by rw [(TrOK.reach hr).defn, hd]; rfl)] at hc
        exact absurd (List.mem_cons_self ..) hc

/-- C79: whatever the interleaving, no task of a flow without conditions is skipped before the error handler is started. -/
theorem C79_no_skip {prio : Bool} {d : Def} {uri : String} {s : St} (wf : WellFormed d.main) (un : Unconditional d.main) (h : Reach prio d uri s)
    (hc : .cleared ∉ s.inst.trace) (o : Nat) (t : TaskRef) : .taskStatus o t .skipped ∉ s.inst.trace :=
  Conc.no_skipped un wf h (not_cleared h hc) o t

/-- C79: and the goroutines do not block each other: an unfinished goroutine can go on, or waits for one that can. -/
theorem C79_progress {prio : Bool} {d : Def} {uri : String} {s : St} (wf : WellFormed d.main) (un : Unconditional d.main) (h : Reach prio d uri s)
    (hc : .cleared ∉ s.inst.trace) {g : Nat} (hg : s.gs g ≠ []) : CanMove prio s g ∨ ∃ k, k ≠ g ∧ s.lock = some k ∧ CanMove prio s k :=
  C43_progress_partial h (fun ⟨o, t, hm⟩ => C79_no_skip wf un h hc o t hm) hg

theorem ended_event {tr : List Flow.Ev} {k : TaskId} (h : timesEnded tr k = 1) (hs : ∀ o t, .taskStatus o t .skipped ∉ tr)
    (hf : ∀ o t, .taskStatus o t .failed ∉ tr) : ∃ o t, t.id = k ∧ .taskStatus o t .done ∈ tr := by
  have h0 : 0 < timesEnded tr k := by omega
  obtain ⟨e, he, h1⟩ := List.countP_pos_iff.1 h0
  cases e with
  | taskStatus o t st =>
    cases st with
    | done => exact ⟨o, t, of_decide_eq_true h1, he⟩
    | failed => exact absurd he (hf o t)
    | skipped => exact absurd he (hs o t)
    | _ => cases h1
  | _ => cases h1

theorem lastFlow_mem : ∀ (tr : List Flow.Ev) (x : FlowStatus), lastFlow tr = x → x ≠ .notStarted → .flowStatus x ∈ tr
  | [], x, h, hx => absurd h.symm hx
  | e :: tr, x, h, hx => by
    cases e with
    | flowStatus y => exact h ▸ List.mem_cons_self ..
    | _ => exact List.mem_cons_of_mem _ (lastFlow_mem tr x h hx)

theorem still_active {prio : Bool} {d : Def} {uri : String} {s : St} (h : Reach prio d uri s) (he : .flowStatus .failed ∉ s.inst.trace)
    (ho : .flowStatus .completed ∉ s.inst.trace) : s.inst.status = .active := by
  have h1 : s.inst.status = .active ∨ s.inst.status = .failed ∨ s.inst.status = .completed := by
    clear he ho
    induction h with
    | init => exact .inl rfl
    | step hr hs ih =>
      rcases (step_status hs).1 with e | e | ⟨e, _⟩
      · rw [e]; exact ih
      · exact .inr (.inl e)
      · exact .inr (.inr e)
  have h2 := (TrOK.reach h).ok.mirror.flow
  rcases h1 with e | e | e
  · exact e
  · exact absurd (lastFlow_mem _ .failed (h2 ▸ e) (fun h => nomatch h)) he
  · exact absurd (lastFlow_mem _ .completed (h2 ▸ e) (fun h => nomatch h)) ho

/-- C79: an interleaving has come to its end: no goroutine can go on and the loop finds nothing to do. If the flow did not fail, did
not complete early and no activity waits, every task has been executed successfully, and ended exactly once. -/
theorem C79_all_done {prio : Bool} {d : Def} {uri : String} {s : St} (wf : WellFormed d.main) (ac : Acyclic d.main) (un : Unconditional d.main)
    (h : Reach prio d uri s) (hend : ∀ l, Conc.step prio s l = none) (he : Errorless s.inst.trace) (ho : .flowStatus .completed ∉ s.inst.trace)
    (hw : ∀ o t, .taskStatus o t .waiting ∉ s.inst.trace) {t : TaskDef} (ht : t ∈ d.main.tasks) :
    timesEnded s.inst.trace t.id = 1 ∧ ∃ o r, r.id = t.id ∧ .taskStatus o r .done ∈ s.inst.trace := by
  have hstop : ∀ g, ¬ CanMove prio s g := by
    rintro g (⟨r, s', h1⟩ | ⟨s', h1⟩)
    · have h2 := hend (.exec g r)
      rw [show Conc.step prio s (.exec g r) = some s' from h1] at h2; cases h2
    · have h2 := hend (.next g)
      rw [show Conc.step prio s (.next g) = some s' from h1] at h2; cases h2
  have hgs : ∀ g, s.gs g = [] := by
    intro g
    cases hg : s.gs g with
    | nil => rfl
    | cons f fs =>
      rcases C79_progress wf un h he.2 (g := g) (by rw [hg]; exact List.cons_ne_nil _ _) with h1 | ⟨k, _, _, h1⟩
      · exact absurd h1 (hstop g)
      · exact absurd h1 (hstop k)
  have hq : s.queue = [] := by
    cases hx : s.queue with
    | nil => rfl
    | cons o q =>
      have h1 := hend (.pop 1)
      have h2 : Conc.pop s 1 = none := h1
      unfold Conc.pop at h2
      rw [hx] at h2
      dsimp only at h2
      rw [if_pos ⟨still_active h he.1 ho, by rw [hgs]; rfl, by rw [hgs]; rfl, Nat.one_ne_zero⟩] at h2
      cases h2
  have h1 := C75_all_end wf ac h he ho hgs hq hw ht
  refine ⟨h1, ended_event h1 (C79_no_skip wf un h he.2) fun o r hm => ?_⟩
  obtain ⟨g, h2⟩ := failed_owed un wf h (errorless_handling h he) hm
  rw [hgs g] at h2; cases h2

theorem joinDef_wf : WellFormed joinDef.main := ⟨by decide, by decide, by decide, by decide⟩

/-- The hypotheses of `C79_no_skip` and `C79_progress` hold while two predecessors of J have decided and one is entering J. -/
example : WellFormed joinDef.main ∧ Unconditional joinDef.main ∧ ∃ s, Reach true joinDef "u" s ∧ .cleared ∉ s.inst.trace ∧ s.gs 1 ≠ [] ∧ s.gs 2 ≠ [] ∧
    s.lock = some 1 :=
  ⟨joinDef_wf, by unfold Unconditional; decide, _, reach_runs (joinLabels.take 21) .init rfl,
    (excluded_of (by decide +kernel)).1.2, (fun h => by cases h), (fun h => by cases h), by decide +kernel⟩

theorem at_end {prio : Bool} {s : St} (hq : s.queue = []) (hg : ∀ g, s.gs g = []) (l : Label) : Conc.step prio s l = none := by
  cases l with
  | pop g => show Conc.pop s g = none; unfold Conc.pop; rw [hq]
  | exec g r => show Conc.exec prio s g r = none; unfold Conc.exec; rw [hg]
  | next g => show Conc.next s g = none; unfold Conc.next; rw [hg]

/-- The hypotheses of `C79_all_done` hold where the flow stays active because J is entered again after it ended. -/
example : Acyclic joinDef.main ∧ ∃ s, Reach true joinDef "u" s ∧ (∀ l, Conc.step true s l = none) ∧ Errorless s.inst.trace ∧
    .flowStatus .completed ∉ s.inst.trace ∧ ∀ o t, .taskStatus o t .waiting ∉ s.inst.trace := by
  refine ⟨⟨fun k => if k = "J" then 1 else if k = "K" then 2 else 0, by decide⟩, _,
    reach_runs joinLabels .init rfl, at_end (by decide +kernel) fun g => ?_, excluded_of (by decide +kernel)⟩
  match g with
  | 0 => rfl
  | 1 => rfl
  | 2 => rfl
  | 3 => rfl
  | 4 => rfl
  | g + 5 => rfl

/-- The condition of `C79_no_skip` is needed: B is skipped if the link from A has a condition that is false. -/
example : ∃ s, Reach true skipDef "u" s ∧ .cleared ∉ s.inst.trace ∧ ∃ o t, .taskStatus o t .skipped ∈ s.inst.trace :=
  ⟨_, reach_runs skipLabels .init rfl, (by decide), 1, ⟨false, "B"⟩, by decide⟩

end Flow
