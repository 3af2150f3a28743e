import Verif.Model.ConcRecord
import Verif.Props.ConcRun

/-
C94 for concurrent task execution: what the state recorder is told.
-/

namespace Flow.Conc
open Spec

variable {prio : Bool} {limit : Int} {d : Def} {uri : String}

/-- The steps of the run among the steps. -/
def runLabels : List TapeLabel → List RunLabel
  | [] => []
  | .run l :: ls => l :: runLabels ls
  | _ :: ls => runLabels ls

theorem runStep_run {s s' : TapeSt} {l : RunLabel} (h : runStep prio limit s l = some s') :
    s.run.step prio limit l = some s'.run ∧ s'.log = s.log ∧ (isWork l = true ∨ s.log ≠ [.start]) := by
  unfold runStep at h
  split at h
  · rename_i hm
    have hk : isWork l = true ∨ s.log ≠ [.start] := by
      by_cases hl : s.log = [.start]
      · rw [hl] at hm
        left
        cases l <;> first | rfl | cases hm
      · exact .inr hl
    cases hr : s.run.step prio limit l with
    | none => rw [hr] at h; cases h
    | some r => rw [hr] at h; cases h; exact ⟨rfl, rfl, hk⟩
  · cases h

/-- What a step does. -/
theorem tape_step {s s' : TapeSt} {l : TapeLabel} (h : s.step prio limit l = some s') :
    (∃ k, l = .run k ∧ s.run.step prio limit k = some s'.run ∧ s'.log = s.log ∧
      (isWork k = true ∨ s.log ≠ [.start])) ∨
    (l = .first ∧ s'.run = s.run ∧ s.log = [.start] ∧ s'.log = [.state s.run.st, .start] ∧ s.run.st.gs 0 = []) ∨
    (l = .done ∧ s'.run = s.run ∧ s.run.phase = .ended ∧ s.run.told ≠ [.limit] ∧ s'.log = .done s.run.st.inst.status :: s.log ∧
      ∀ x y, s.log ≠ .done x :: y) := by
  cases l with
  | run k =>
    obtain ⟨h1, h2, h3⟩ := runStep_run h
    exact .inl ⟨k, rfl, h1, h2, h3⟩
  | first =>
    have h : firstStep s = some s' := h
    unfold firstStep at h
    split at h
    · rename_i hl
      split at h
      · rename_i hg
        cases h
        exact .inr (.inl ⟨rfl, rfl, hl, rfl, List.isEmpty_iff.1 hg⟩)
      · cases h
    · cases h
  | done =>
    have h : doneStep s = some s' := h
    unfold doneStep at h
    split at h
    · cases h
    · rename_i hl
      split at h
      · rename_i hp
        cases h
        exact .inr (.inr ⟨rfl, rfl, hp.1, hp.2, rfl, hl⟩)
      · cases h

theorem tape_steps_run : ∀ (ls : List TapeLabel) {s s' : TapeSt}, s.steps prio limit ls = some s' →
    s.run.runs prio limit (runLabels ls) = some s'.run
  | [], s, s', h => by cases h; rfl
  | l :: ls, s, s', h => by
    have h : (s.step prio limit l).bind (fun s' => s'.steps prio limit ls) = some s' := h
    cases hs : s.step prio limit l with
    | none => rw [hs] at h; cases h
    | some s1 =>
      rw [hs] at h
      have ih := tape_steps_run ls h
      rcases tape_step hs with ⟨k, rfl, hk, _⟩ | ⟨rfl, hr, _⟩ | ⟨rfl, hr, _⟩
      · show (s.run.step prio limit k).bind _ = _
        rw [hk]; exact ih
      · rw [← hr]; exact ih
      · rw [← hr]; exact ih

/-- C94 in concurrent mode: the recorder does not change what is executed and delivered. -/
theorem _root_.Flow.C94_concurrent_same {ls : List TapeLabel} {s : TapeSt} (h : (TapeSt.init d uri).steps prio limit ls = some s) :
    (RunSt.init d uri).runs prio limit (runLabels ls) = some s.run := tape_steps_run ls h

/-- The flow has been started, its first tasks are queued, and nothing has been taken from the queue. -/
def Started (prio : Bool) (limit : Int) (d : Def) (uri : String) (x : St) : Prop :=
  x.gs 0 = [] ∧ ∃ ls r, (RunSt.init d uri).runs prio limit ls = some r ∧ r.st = x ∧ ls.countP isTake = 0

/-- What is recorded, and when. -/
def TapeOK (prio : Bool) (limit : Int) (d : Def) (uri : String) (s : TapeSt) : Prop :=
  (s.log = [.start] ∧ s.run.phase = .loop ∧ s.run.count = 0) ∨
  (∃ x, s.log = [.state x, .start] ∧ Started prio limit d uri x) ∨
  (∃ x st, s.log = [.done st, .state x, .start] ∧ Started prio limit d uri x ∧ s.run.phase = .ended ∧ s.run.told ≠ [.limit])

theorem TapeOK.step {s s' : TapeSt} {l : TapeLabel} (hs : TapeOK prio limit d uri s)
    (hh : ∃ ls, (RunSt.init d uri).runs prio limit ls = some s.run) (h : s.step prio limit l = some s') : TapeOK prio limit d uri s' := by
  rcases tape_step h with ⟨k, rfl, hk, hlog, hkind⟩ | ⟨rfl, hr, hl, hlog, hg⟩ | ⟨rfl, hr, hp, ht, hlog, hnd⟩
  · rcases hs with ⟨h1, h2, h3⟩ | ⟨x, h1, h2⟩ | ⟨x, st, h1, h2, h3, h4⟩
    · refine .inl ⟨hlog.trans h1, ?_⟩
      have hwork : isWork k = true := by
        rcases hkind with hw | hne
        · exact hw
        · exact absurd h1 hne
      rcases run_step hk with ⟨_, _, _, hp, ⟨_, rfl, _⟩ | ⟨_, _, hc⟩⟩ | ⟨_, _, _, hw, _⟩
      · cases hwork
      · exact ⟨hp.trans h2, hc.trans h3⟩
      · rw [hwork] at hw; cases hw
    · exact .inr (.inl ⟨x, hlog.trans h1, h2⟩)
    · refine .inr (.inr ⟨x, st, hlog.trans h1, h2, ?_⟩)
      have hov := C100_over (prio := prio) (limit := limit) h3 [k] (r' := s'.run) (by show (s.run.step prio limit k).bind _ = _; rw [hk]; rfl)
      have hph : s'.run.phase = .ended := by
        rcases run_step hk with ⟨_, _, _, hp, _⟩ | ⟨_, _, _, hw, _⟩
        · exact hp.trans h3
        · rw [hov.2 k (.head _)] at hw; cases hw
      exact ⟨hph, by rw [hov.1]; exact h4⟩
  · rcases hs with ⟨_, h2, h3⟩ | ⟨x, h1, _⟩ | ⟨x, st, h1, _⟩
    · obtain ⟨ls, hls⟩ := hh
      refine .inr (.inl ⟨_, hlog, hg, ls, s.run, hls, rfl, ?_⟩)
      have := (RunInv.run ls s.run hls).count
      rw [h3] at this
      omega
    · rw [hl] at h1; cases h1
    · rw [hl] at h1; cases h1
  · rcases hs with ⟨_, h2, _⟩ | ⟨x, h1, h2⟩ | ⟨x, st, h1, _⟩
    · rw [h2] at hp; cases hp
    · exact .inr (.inr ⟨x, _, by rw [hlog, h1], h2, by rw [hr]; exact hp, by rw [hr]; exact ht⟩)
    · exact absurd h1 (hnd _ _)

theorem runs_add : ∀ (ls : List RunLabel) {r r' r'' : RunSt} {l : RunLabel}, r.runs prio limit ls = some r' → r'.step prio limit l = some r'' →
    r.runs prio limit (ls ++ [l]) = some r''
  | [], r, r', r'', l, h, h' => by
    cases h
    show (r.step prio limit l).bind _ = _
    rw [h']; rfl
  | a :: ls, r, r', r'', l, h, h' => by
    have h : (r.step prio limit a).bind (fun r' => r'.runs prio limit ls) = some r' := h
    show (r.step prio limit a).bind (fun r' => r'.runs prio limit (ls ++ [l])) = _
    cases hs : r.step prio limit a with
    | none => rw [hs] at h; cases h
    | some r1 => rw [hs] at h; exact runs_add ls h h'

theorem TapeOK.all : ∀ (ls : List TapeLabel) {s s' : TapeSt}, TapeOK prio limit d uri s →
    (∃ ls, (RunSt.init d uri).runs prio limit ls = some s.run) → s.steps prio limit ls = some s' → TapeOK prio limit d uri s'
  | [], s, s', hs, _, h => by cases h; exact hs
  | l :: ls, s, s', hs, hh, h => by
    have h : (s.step prio limit l).bind (fun s' => s'.steps prio limit ls) = some s' := h
    cases h1 : s.step prio limit l with
    | none => rw [h1] at h; cases h
    | some s1 =>
      rw [h1] at h
      refine TapeOK.all ls (hs.step hh h1) ?_ h
      obtain ⟨l0, hl0⟩ := hh
      rcases tape_step h1 with ⟨k, _, hk, _⟩ | ⟨_, hr, _⟩ | ⟨_, hr, _⟩
      · exact ⟨_, runs_add l0 hl0 hk⟩
      · exact ⟨l0, by rw [hr]; exact hl0⟩
      · exact ⟨l0, by rw [hr]; exact hl0⟩

theorem tapeOK {ls : List TapeLabel} {s : TapeSt} (h : (TapeSt.init d uri).steps prio limit ls = some s) : TapeOK prio limit d uri s :=
  TapeOK.all ls (.inl ⟨rfl, rfl, rfl⟩) ⟨[], rfl⟩ h

/-- C94 in concurrent mode: the recorder is first told of the start, then of the state in which the loop begins, when nothing has been
taken yet, and at most once, and last, of the end, after the result was given.

Partial: no state after a step is ever recorded, which `C94_negation_concurrent` shows for all runs. -/
theorem _root_.Flow.C94_concurrent_partial {ls : List TapeLabel} {s : TapeSt} (h : (TapeSt.init d uri).steps prio limit ls = some s) :
    (s.log = [.start] ∧ (runLabels ls).countP isTake = 0 ∧ s.run.told = []) ∨
    (∃ x, s.log = [.state x, .start] ∧ Started prio limit d uri x) ∨
    (∃ x st, s.log = [.done st, .state x, .start] ∧ Started prio limit d uri x ∧ s.run.phase = .ended ∧ s.run.told ≠ [.limit]) := by
  rcases tapeOK h with ⟨h1, h2, h3⟩ | h1 | h1
  · have hi := RunInv.run _ _ (C94_concurrent_same h)
    refine .inl ⟨h1, ?_, hi.early (by rw [h2]; decide)⟩
    have := hi.count
    rw [h3] at this
    omega
  · exact .inr (.inl h1)
  · exact .inr (.inr h1)

/-- C94 in concurrent mode: when the result was given the end can be recorded, without waiting for anything, and with the status of the
moment; after the error of the limit it is never recorded. -/
theorem _root_.Flow.C94_concurrent_end {ls : List TapeLabel} {s : TapeSt} (h : (TapeSt.init d uri).steps prio limit ls = some s)
    (hp : s.run.phase = .ended) :
    (s.run.told ≠ [.limit] → (∃ st x, s.log = [.done st, .state x, .start]) ∨
      ∃ s', s.step prio limit .done = some s' ∧ s'.log = .done s.run.st.inst.status :: s.log) ∧
    (s.run.told = [.limit] → ∀ ls' s', s.steps prio limit ls' = some s' → ∃ x, s'.log = [.state x, .start]) := by
  have hok := tapeOK h
  refine ⟨fun ht => ?_, fun ht => ?_⟩
  · rcases hok with ⟨_, h2, _⟩ | ⟨x, h1, _⟩ | ⟨x, st, h1, _⟩
    · rw [h2] at hp; cases hp
    · refine .inr ⟨{ s with log := .done s.run.st.inst.status :: s.log }, ?_, rfl⟩
      show doneStep s = _
      unfold doneStep
      rw [h1]
      dsimp only
      rw [if_pos ⟨hp, ht⟩]
    · exact .inl ⟨st, x, h1⟩
  · intro ls' s' h'
    have hov := C100_over (prio := prio) (limit := limit) hp _ (tape_steps_run ls' h')
    rcases TapeOK.all ls' hok ⟨_, C94_concurrent_same h⟩ h' with ⟨h1, h2, _⟩ | ⟨x, h1, _⟩ | ⟨_, _, _, _, _, h4⟩
    · exfalso
      -- the phase of the run does not go back
      have back : ∀ (ls : List RunLabel) {r r' : RunSt}, r.phase = .ended → r.runs prio limit ls = some r' → r'.phase = .ended := by
        intro ls
        induction ls with
        | nil => intro r r' hp h; cases h; exact hp
        | cons l ls ih =>
          intro r r' hp h
          have h : (r.step prio limit l).bind (fun r' => r'.runs prio limit ls) = some r' := h
          cases hs : r.step prio limit l with
          | none => rw [hs] at h; cases h
          | some r1 =>
            rw [hs] at h
            refine ih ?_ h
            rcases run_step hs with ⟨_, _, _, hq, _⟩ | ⟨_, _, _, _, hx | hx | hx | hx⟩
            · exact hq.trans hp
            · rw [hx.2.1] at hp; cases hp
            · rw [hx.2.1] at hp; cases hp
            · rw [hx.2.1] at hp; cases hp
            · rw [hx.2.1] at hp; cases hp
      have := back _ hp (tape_steps_run ls' h')
      rw [h2] at this; cases this
    · exact ⟨x, h1⟩
    · rw [hov.1] at h4; exact absurd ht h4

/-- The states among the records. -/
def tapedStates : List TapeEv → List St
  | [] => []
  | .state s :: es => s :: tapedStates es
  | _ :: es => tapedStates es

/-- C94 fails in concurrent mode: however many items are executed, at most one state is recorded, the one before the first of them. -/
theorem _root_.Flow.C94_negation_concurrent {ls : List TapeLabel} {s : TapeSt} (h : (TapeSt.init d uri).steps prio limit ls = some s) :
    (tapedStates s.log).length ≤ 1 := by
  rcases C94_concurrent_partial h with ⟨h1, _⟩ | ⟨x, h1, _⟩ | ⟨x, st, h1, _⟩ <;> rw [h1] <;> simp [tapedStates]

/-! ### Examples -/

/-- The run in which A completes the flow while C fails, with its records; the failure of C is noticed after the data were delivered. -/
def tapedEarly : List TapeLabel :=
  (reportedEarly.take 8).map .run ++ [.first] ++ (reportedEarly.drop 8).map .run ++ [.run (.next 2), .done]

/-- C94 fails in concurrent mode: two items are executed and none of them is followed by a record; the data were delivered, but the record
of the end says that the flow has failed. -/
theorem _root_.Flow.C94_negation_concurrent_status : ∃ s, (TapeSt.init pairDef "u").steps true 10 tapedEarly = some s ∧
    (runLabels tapedEarly).countP isTake = 2 ∧ (tapedStates s.log).length = 1 ∧ s.run.told = [.data] ∧
    (match s.log with | .done st :: _ => decide (st = .failed) | _ => false) = true :=
  ⟨_, rfl, by decide +kernel, by decide +kernel, by decide +kernel, by decide +kernel⟩

-- C94_concurrent_end: a run that has ended with data, and one that has ended with the error of the limit
example : ∃ s, (TapeSt.init pairDef "u").steps true 10 (tapedEarly.take 18) = some s ∧ s.run.phase = .ended ∧ s.run.told = [.data] :=
  ⟨_, rfl, by decide +kernel, by decide +kernel⟩
example : ∃ s, (TapeSt.init pairDef "u").steps true 0
    ((asRuns (nexts 0 8)).map .run ++ [.first] ++ ((asRuns [.pop 1]) ++ [RunLabel.exceed, RunLabel.report]).map .run) = some s ∧
    s.run.phase = .ended ∧ s.run.told = [.limit] := ⟨_, rfl, by decide +kernel, by decide +kernel⟩

end Flow.Conc
