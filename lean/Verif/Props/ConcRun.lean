import Verif.Model.ConcRun
import Verif.Props.ConcOrder

/-
C100: the result of a run in concurrent mode.
-/

namespace Flow

open Spec Conc

variable {prio : Bool} {limit : Int} {d : Def} {uri : String}

/-- The label takes a work item that is executed. -/
def isTake : RunLabel → Bool
  | .take _ => true
  | _ => false

/-- The label is a step of an executing goroutine. -/
def isWork : RunLabel → Bool
  | .exec _ _ => true
  | .next _ => true
  | _ => false

/-- What a step does to the machine of the goroutines, the loop and the results. -/
theorem run_step {r r' : RunSt} {l : RunLabel} (h : r.step prio limit l = some r') :
    (∃ k, Conc.step prio r.st k = some r'.st ∧ r'.told = r.told ∧ r'.phase = r.phase ∧
      ((∃ g, l = .take g ∧ k = .pop g ∧ r.phase = .loop ∧ r.count ≤ limit ∧ r'.count = r.count + 1) ∨ (isTake l = false ∧ isWork l = true ∧ r'.count = r.count))) ∨
    (r'.st = r.st ∧ r'.count = r.count ∧ isTake l = false ∧ isWork l = false ∧
      ((l = .exceed ∧ r.phase = .loop ∧ limit < r.count ∧ r.st.inst.status = .active ∧ r.st.queue ≠ [] ∧ r'.phase = .over ∧ r'.told = r.told) ∨
       (l = .leave ∧ r.phase = .loop ∧ r.st.inst.status ≠ .active ∧ r'.phase = .after ∧ r'.told = r.told) ∨
       (l = .report ∧ r.phase = .over ∧ r'.phase = .ended ∧ r'.told = (if r.st.inst.status = .completed then [.data] else [.limit]) ++ r.told) ∨
       (l = .report ∧ r.phase = .after ∧ r'.phase = .ended ∧ r'.told = toldFor r.st.inst.status ++ r.told))) := by
  cases l with
  | take g =>
    have h : takeStep limit r g = some r' := h
    unfold takeStep at h
    split at h
    · rename_i hc
      cases hp : pop r.st g with
      | none => rw [hp] at h; cases h
      | some s =>
        rw [hp] at h
        cases h
        exact .inl ⟨.pop g, hp, rfl, rfl, .inl ⟨g, rfl, rfl, hc.1, hc.2, rfl⟩⟩
    · cases h
  | exceed =>
    have h : exceedStep limit r = some r' := h
    unfold exceedStep at h
    split at h
    · rename_i hc
      cases h
      exact .inr ⟨rfl, rfl, rfl, rfl, .inl ⟨rfl, hc.1, hc.2.1, hc.2.2.1, hc.2.2.2.2, rfl, rfl⟩⟩
    · cases h
  | leave =>
    have h : leaveStep r = some r' := h
    unfold leaveStep at h
    split at h
    · rename_i hc
      cases h
      exact .inr ⟨rfl, rfl, rfl, rfl, .inr (.inl ⟨rfl, hc.1, hc.2.2, rfl, rfl⟩)⟩
    · cases h
  | report =>
    have h : reportStep r = some r' := h
    unfold reportStep at h
    split at h
    · rename_i hp
      cases h
      exact .inr ⟨rfl, rfl, rfl, rfl, .inr (.inr (.inl ⟨rfl, hp, rfl, rfl⟩))⟩
    · rename_i hp
      cases h
      exact .inr ⟨rfl, rfl, rfl, rfl, .inr (.inr (.inr ⟨rfl, hp, rfl, rfl⟩))⟩
    · cases h
  | exec g x =>
    have h : (Conc.exec prio r.st g x).map (fun s => { r with st := s }) = some r' := h
    cases hp : Conc.exec prio r.st g x with
    | none => rw [hp] at h; cases h
    | some s =>
      rw [hp] at h
      cases h
      exact .inl ⟨.exec g x, hp, rfl, rfl, .inr ⟨rfl, rfl, rfl⟩⟩
  | next g =>
    have h : (Conc.next r.st g).map (fun s => { r with st := s }) = some r' := h
    cases hp : Conc.next r.st g with
    | none => rw [hp] at h; cases h
    | some s =>
      rw [hp] at h
      cases h
      exact .inl ⟨.next g, hp, rfl, rfl, .inr ⟨rfl, rfl, rfl⟩⟩

theorem runs_snoc : ∀ (ls : List RunLabel) {r r' : RunSt} {l : RunLabel}, r.runs prio limit (ls ++ [l]) = some r' →
    ∃ r1, r.runs prio limit ls = some r1 ∧ r1.step prio limit l = some r'
  | [], r, r', l, h => by
    refine ⟨r, rfl, ?_⟩
    have h : (r.step prio limit l).bind (fun r' => some r') = some r' := h
    cases hs : r.step prio limit l with
    | none => rw [hs] at h; cases h
    | some x => rw [hs] at h; exact h
  | a :: ls, r, r', l, h => by
    have h : (r.step prio limit a).bind (fun r' => r'.runs prio limit (ls ++ [l])) = some r' := h
    cases hs : r.step prio limit a with
    | none => rw [hs] at h; cases h
    | some x =>
      rw [hs] at h
      obtain ⟨r1, h1, h2⟩ := runs_snoc ls h
      refine ⟨r1, ?_, h2⟩
      show (r.step prio limit a).bind (fun r' => r'.runs prio limit ls) = some r1
      rw [hs]; exact h1

/-- Induction over the labels of a run, from its end. -/
theorem runs_induct {P : List RunLabel → RunSt → Prop} {r0 : RunSt} (h0 : P [] r0)
    (hs : ∀ ls r l r', r0.runs prio limit ls = some r → P ls r → r.step prio limit l = some r' → P (ls ++ [l]) r') :
    ∀ (ls : List RunLabel) (r : RunSt), r0.runs prio limit ls = some r → P ls r := by
  intro ls
  induction hn : ls.length generalizing ls with
  | zero =>
    intro r h
    cases ls with
    | nil => cases h; exact h0
    | cons a ls => cases hn
  | succ n ih =>
    intro r h
    have hne : ls ≠ [] := by intro hc; rw [hc] at hn; cases hn
    rw [← List.dropLast_concat_getLast hne] at h ⊢
    obtain ⟨r1, h1, h2⟩ := runs_snoc _ h
    exact hs _ r1 _ r h1 (ih _ (by rw [List.length_dropLast, hn]; rfl) r1 h1) h2

/-- The run and its results. -/
structure RunInv (limit : Int) (ls : List RunLabel) (r : RunSt) : Prop where
  count : r.count = (ls.countP isTake : Nat)
  bound : r.count ≤ max 0 (limit + 1)
  early : r.phase ≠ .ended → r.told = []
  one : r.told.length ≤ 1
  over : r.phase = .over → limit < r.count
  limit : .limit ∈ r.told → limit < r.count

theorem toldFor_length (s : FlowStatus) : (toldFor s).length ≤ 1 := by cases s <;> decide

theorem RunInv.run (ls : List RunLabel) (r : RunSt) (h : (RunSt.init d uri).runs prio limit ls = some r) : RunInv limit ls r := by
  refine runs_induct (P := fun ls r => RunInv limit ls r) ⟨rfl, by show (0 : Int) ≤ _; omega, fun _ => rfl, (by show 0 ≤ 1; decide), (by intro h; cases h), (by intro h; cases h)⟩
    (fun ls r l r' _ hi hs => ?_) ls r h
  have hcnt : ((ls ++ [l]).countP isTake) = ls.countP isTake + if isTake l then 1 else 0 := by
    rw [List.countP_append]; simp [List.countP_cons]
  rcases run_step hs with ⟨k, _, ht, hp, ⟨g, rfl, _, hl, hle, hc⟩ | ⟨h1, _, hc⟩⟩ | ⟨_, hc, h1, _, h2⟩
  · refine ⟨?_, ?_, ?_, ?_, ?_, ?_⟩
    · rw [hcnt, hc, hi.count]; simp [isTake]
    · rw [hc]; omega
    · rw [hp, ht]; exact hi.early
    · rw [ht]; exact hi.one
    · intro h; rw [hp, hl] at h; cases h
    · intro h; rw [ht, hi.early (by rw [hl]; decide)] at h; cases h
  · have hcount : r'.count = ((ls ++ [l]).countP isTake : Nat) := by rw [hcnt, hc, hi.count, h1]; simp
    refine ⟨hcount, ?_, ?_, ?_, ?_, ?_⟩
    · rw [hc]; exact hi.bound
    · rw [hp, ht]; exact hi.early
    · rw [ht]; exact hi.one
    · rw [hp, hc]; exact hi.over
    · rw [ht, hc]; exact hi.limit
  · have hcount : r'.count = ((ls ++ [l]).countP isTake : Nat) := by rw [hcnt, hc, hi.count, h1]; simp
    have hb : r'.count ≤ max 0 (limit + 1) := by rw [hc]; exact hi.bound
    rcases h2 with ⟨_, hl, hlt, _, _, hp, ht⟩ | ⟨_, hl, _, hp, ht⟩ | ⟨_, hl, hp, ht⟩ | ⟨_, hl, hp, ht⟩
    · have he := hi.early (by rw [hl]; decide)
      refine ⟨hcount, hb, (fun _ => by rw [ht, he]), (by rw [ht, he]; decide), (fun _ => by rw [hc]; exact hlt), (fun h => by rw [ht, he] at h; cases h)⟩
    · have he := hi.early (by rw [hl]; decide)
      refine ⟨hcount, hb, (fun _ => by rw [ht, he]), (by rw [ht, he]; decide), (fun h => by rw [hp] at h; cases h), (fun h => by rw [ht, he] at h; cases h)⟩
    · have he := hi.early (by rw [hl]; decide)
      rw [he, List.append_nil] at ht
      refine ⟨hcount, hb, fun h => absurd hp h, ?_, (fun h => by rw [hp] at h; cases h), fun _ => by rw [hc]; exact hi.over hl⟩
      rw [ht]; split <;> decide
    · have he := hi.early (by rw [hl]; decide)
      rw [he, List.append_nil] at ht
      refine ⟨hcount, hb, fun h => absurd hp h, ?_, (fun h => by rw [hp] at h; cases h), fun h => ?_⟩
      · rw [ht]; exact toldFor_length _
      · rw [ht] at h; cases hst : r.st.inst.status <;> rw [hst] at h <;> simp [toldFor] at h

/-- C100: whatever the interleaving, the goroutines of a run behave as the machine of the concurrent mode, so that everything proved
about that (C42, C69 to C75, C79, C80) holds during a run with its limit and its results. -/
theorem C100_interleaving {ls : List RunLabel} {r : RunSt} (h : (RunSt.init d uri).runs prio limit ls = some r) : Reach prio d uri r.st := by
  refine runs_induct (P := fun _ r => Reach prio d uri r.st) .init (fun ls r l r' _ hi hs => ?_) ls r h
  rcases run_step hs with ⟨k, hk, _⟩ | ⟨hst, _⟩
  · exact .step hi hk
  · rw [hst]; exact hi

/-- C100: a run delivers at most one result, and none before its end. -/
theorem C100_at_most_one {ls : List RunLabel} {r : RunSt} (h : (RunSt.init d uri).runs prio limit ls = some r) :
    r.told.length ≤ 1 ∧ (r.phase ≠ .ended → r.told = []) := ⟨(RunInv.run ls r h).one, (RunInv.run ls r h).early⟩

/-- C100: a result is what the flow has come to at the moment it is delivered: data if it completed, its error if it failed, the error
of the limit if it did not complete and more items than allowed were executed.

Partial: the flow can change afterwards, see `C100_negation_changed`, and work can still go on, see `C100_negation_running`. -/
theorem C100_truth_partial {ls : List RunLabel} {r r' : RunSt} {l : RunLabel} (h : (RunSt.init d uri).runs prio limit ls = some r)
    (hs : r.step prio limit l = some r') {x : Told} (hx : r'.told = x :: r.told) :
    (x = .data ∧ r.st.inst.status = .completed) ∨ (x = .error ∧ r.st.inst.status = .failed) ∨
    (x = .limit ∧ r.st.inst.status ≠ .completed ∧ limit < (ls.countP isTake : Nat)) := by
  have hi := RunInv.run ls r h
  have hne : ∀ (a : List Told), a ≠ x :: a := fun a hc => by
    have := congrArg List.length hc
    rw [List.length_cons] at this
    omega
  rcases run_step hs with ⟨k, _, ht, _⟩ | ⟨_, _, _, _, ⟨_, _, _, _, _, _, ht⟩ | ⟨_, _, _, _, ht⟩ | ⟨_, hl, _, ht⟩ | ⟨_, hl, _, ht⟩⟩
  · exact absurd (ht.symm.trans hx) (hne _)
  · exact absurd (ht.symm.trans hx) (hne _)
  · exact absurd (ht.symm.trans hx) (hne _)
  · rw [ht, hi.early (by rw [hl]; decide)] at hx
    split at hx
    · rename_i hc
      cases hx
      exact .inl ⟨rfl, hc⟩
    · rename_i hc
      cases hx
      exact .inr (.inr ⟨rfl, hc, by rw [← hi.count]; exact hi.over hl⟩)
  · rw [ht, hi.early (by rw [hl]; decide)] at hx
    cases hst : r.st.inst.status <;> rw [hst] at hx <;> simp [toldFor] at hx
    · exact .inl ⟨hx.symm, rfl⟩
    · exact .inr (.inl ⟨hx.symm, rfl⟩)

/-- C100: no more than one work item above the limit is executed. -/
theorem C100_limit {ls : List RunLabel} {r : RunSt} (h : (RunSt.init d uri).runs prio limit ls = some r) :
    ((ls.countP isTake : Nat) : Int) ≤ max 0 (limit + 1) := by
  have hi := RunInv.run ls r h
  rw [← hi.count]
  exact hi.bound

/-- C100: once the flow has completed or failed, and the instance has been started, the run can deliver its result at any moment, without
waiting for anything. -/
theorem C100_delivers {ls : List RunLabel} {r : RunSt} (h : (RunSt.init d uri).runs prio limit ls = some r) (hp : r.phase = .loop)
    (h0 : r.st.gs 0 = []) :
    (r.st.inst.status = .completed → ∃ r', r.runs prio limit [.leave, .report] = some r' ∧ r'.told = [.data]) ∧
    (r.st.inst.status = .failed → ∃ r', r.runs prio limit [.leave, .report] = some r' ∧ r'.told = [.error]) := by
  have he := (RunInv.run ls r h).early (by rw [hp]; decide)
  have key : r.st.inst.status ≠ .active → ∃ r', r.runs prio limit [.leave, .report] = some r' ∧ r'.told = toldFor r.st.inst.status := by
    intro hst
    have h1 : r.step prio limit .leave = some { r with phase := .after } := if_pos ⟨hp, by rw [h0]; rfl, hst⟩
    refine ⟨{ r with phase := .ended, told := toldFor r.st.inst.status ++ r.told }, ?_, by rw [he]; exact List.append_nil _⟩
    show (r.step prio limit .leave).bind (fun r' => r'.runs prio limit [.report]) = _
    rw [h1]
    rfl
  constructor
  · intro hst
    obtain ⟨r', h1, h2⟩ := key (by rw [hst]; decide)
    exact ⟨r', h1, by rw [h2, hst]; rfl⟩
  · intro hst
    obtain ⟨r', h1, h2⟩ := key (by rw [hst]; decide)
    exact ⟨r', h1, by rw [h2, hst]; rfl⟩

/-- C100: after the end of the loop no further work item is taken and no further result is delivered. -/
theorem C100_over {r r' : RunSt} (he : r.phase = .ended) : ∀ ls, r.runs prio limit ls = some r' →
    r'.told = r.told ∧ ∀ l ∈ ls, isWork l = true := by
  intro ls
  induction ls generalizing r with
  | nil => intro h; cases h; exact ⟨rfl, fun l hl => by cases hl⟩
  | cons a ls ih =>
    intro h
    have h : (r.step prio limit a).bind (fun r' => r'.runs prio limit ls) = some r' := h
    cases hs : r.step prio limit a with
    | none => rw [hs] at h; cases h
    | some x =>
      rw [hs] at h
      rcases run_step hs with ⟨k, _, ht, hp, ⟨g, _, _, hl, _⟩ | ⟨_, hw, _⟩⟩ | ⟨_, _, _, _, h2⟩
      · rw [he] at hl; cases hl
      · obtain ⟨h3, h4⟩ := ih (by rw [hp]; exact he) h
        refine ⟨h3.trans ht, fun l hl => ?_⟩
        rcases List.mem_cons.1 hl with rfl | hl
        · exact hw
        · exact h4 l hl
      · rcases h2 with h2 | h2 | h2 | h2
        · rw [he] at h2; cases h2.2.1
        · rw [he] at h2; cases h2.2.1
        · rw [he] at h2; cases h2.2.1
        · rw [he] at h2; cases h2.2.1

/-- C100: if no goroutine works any more when the result is delivered, nothing happens afterwards: the result stays true.

Partial: the loop does not wait for the goroutines, see `C100_negation_running`. -/
theorem C100_final_partial {r r' : RunSt} (he : r.phase = .ended) (hg : ∀ g, r.st.gs g = []) {ls : List RunLabel}
    (h : r.runs prio limit ls = some r') : ls = [] ∧ r' = r := by
  cases ls with
  | nil => cases h; exact ⟨rfl, rfl⟩
  | cons l ls =>
    have hw := (C100_over he _ h).2 l (.head _)
    have h : (r.step prio limit l).bind (fun r' => r'.runs prio limit ls) = some r' := h
    have hn : r.step prio limit l = none := by
      cases l with
      | exec g x =>
        show (Conc.exec prio r.st g x).map (fun s => { r with st := s }) = none
        unfold Conc.exec
        rw [hg g]; rfl
      | next g =>
        show (Conc.next r.st g).map (fun s => { r with st := s }) = none
        unfold Conc.next
        rw [hg g]; rfl
      | take g => cases hw
      | exceed => cases hw
      | leave => cases hw
      | report => cases hw
    rw [hn] at h
    cases h

/-- The labels of the goroutines as labels of a run. -/
def asRun : Label → RunLabel
  | .pop g => .take g
  | .exec g r => .exec g r
  | .next g => .next g

/-- Labels of the goroutines, one after the other, as labels of a run. -/
def asRuns (ls : List Label) : List RunLabel := ls.map asRun

/-- A and C are executed at the same time and A completes the flow; then the loop ends and the result is reported. -/
def reportedEarly : List RunLabel :=
  asRuns (nexts 0 8 ++ [.pop 1, .pop 2, .exec 2 .error, .exec 1 allTrue] ++ nexts 1 2) ++ [.leave, .report]

/-- The hypotheses of `C100_truth_partial` and `C100_delivers` hold: two start tasks are executed one beside the other, then the flow is
completed, and the data are delivered. -/
example : ∃ r r', (RunSt.init pairDef "u").runs true 10 (reportedEarly.take 14) = some r ∧ r.phase = .loop ∧ r.st.gs 0 = [] ∧
    r.st.inst.status = .completed ∧ r.runs true 10 [.leave, .report] = some r' ∧ r'.told = [.data] :=
  ⟨_, _, rfl, rfl, rfl, by decide +kernel, rfl, by decide +kernel⟩

/-- The hypotheses of `C100_final_partial` hold: A and C are executed, and the result is delivered when both are over. -/
example : ∃ r, (RunSt.init pairDef "u").runs true 10 (asRuns (nexts 0 8 ++ [.pop 1, .pop 2, .exec 1 allTrue] ++ nexts 1 5 ++
    [.exec 2 allTrue] ++ nexts 2 3) ++ [.leave, .report]) = some r ∧ r.told = [.data] ∧ r.phase = .ended ∧ ∀ g, r.st.gs g = [] := by
  refine ⟨_, rfl, by decide +kernel, by decide +kernel, fun g => ?_⟩
  match g with
  | 0 => rfl
  | 1 => rfl
  | 2 => rfl
  | g + 3 => rfl

/-- The limit: only one item may be executed above the limit 0; the second start task exceeds it. -/
example : ∃ r, (RunSt.init pairDef "u").runs true 0 (asRuns (nexts 0 8 ++ [.pop 1]) ++ [.exceed, .report]) = some r ∧ r.told = [.limit] ∧
    r.count = 1 :=
  ⟨_, rfl, by decide +kernel, by decide +kernel⟩

/-- C100 fails: the data are delivered as the result of a completed flow, and then the flow fails, because C, whose activity had failed,
was executed at the same time. The caller is never told. -/
theorem C100_negation_changed : ∃ r r', (RunSt.init pairDef "u").runs true 10 reportedEarly = some r ∧ r.told = [.data] ∧ r.phase = .ended ∧
    r.runs true 10 [.next 2] = some r' ∧ r'.st.inst.status = .failed ∧ r'.told = [.data] :=
  ⟨_, _, rfl, by decide +kernel, by decide +kernel, rfl, by decide +kernel, by decide +kernel⟩

/-- C100 fails: A sets an explicit return; the data are delivered while C is still being executed, and C ends afterwards. -/
theorem C100_negation_running : ∃ r r', (RunSt.init pairDef "u").runs true 10
    (asRuns (nexts 0 8 ++ [.pop 1, .pop 2, .exec 1 (.done (fun _ => .ok true) true)] ++ nexts 1 2) ++ [.leave, .report]) = some r ∧
    r.told = [.data] ∧ r.phase = .ended ∧ (r.st.gs 2).isEmpty = false ∧ statusChanges r.st.inst.trace =
      [("A", .entered), ("A", .ready), ("C", .entered), ("C", .ready), ("A", .done)] ∧
    r.runs true 10 [.exec 2 allTrue] = some r' ∧ statusChanges r'.st.inst.trace =
      [("A", .entered), ("A", .ready), ("C", .entered), ("C", .ready), ("A", .done), ("C", .done)] :=
  ⟨_, _, rfl, by decide +kernel, by decide +kernel, by decide +kernel, by decide +kernel, rfl, by decide +kernel⟩

/-- Without any work, and with the flow active, the loop does not end. -/
theorem run_stuck {r : RunSt} (hp : r.phase = .loop) (ha : r.st.inst.status = .active) (hq : r.st.queue = [])
    (hs : ∀ l, Conc.step prio r.st l = none) (l : RunLabel) : r.step prio limit l = none := by
  cases hr : r.step prio limit l with
  | none => rfl
  | some r' =>
    rcases run_step hr with ⟨k, hk, _⟩ | ⟨_, _, _, _, h | h | h | h⟩
    · rw [hs k] at hk; cases hk
    · exact absurd hq h.2.2.2.2.1
    · exact absurd ha h.2.2.1
    · rw [hp] at h; cases h.2.1
    · rw [hp] at h; cases h.2.1

/-- C100 fails: A and B enter J at the same time, and the flow stays active with nothing left to execute (`C44_negation`); the loop goes
on for ever and no result is delivered. -/
theorem C100_negation_never : ∃ r, (RunSt.init joinDef "u").runs true 10 (asRuns joinLabels) = some r ∧ r.told = [] ∧
    ∀ l, r.step true 10 l = none := by
  refine ⟨_, rfl, by decide +kernel, fun l => run_stuck (by decide +kernel) (by decide +kernel) (by decide +kernel) (fun l => ?_) l⟩
  cases l with
  | pop g => rfl
  | exec g r =>
    match g with
    | 0 => rfl
    | 1 => rfl
    | 2 => rfl
    | 3 => rfl
    | 4 => rfl
    | g + 5 => rfl
  | next g =>
    match g with
    | 0 => rfl
    | 1 => rfl
    | 2 => rfl
    | 3 => rfl
    | 4 => rfl
    | g + 5 => rfl

end Flow
