import Verif.Model.ConcDemand
import Verif.Props.ConcRun

/-
C54 for concurrent task execution: what an on-demand flow delivers.
-/

namespace Flow.Conc
open Spec

variable {prio : Bool} {limit : Int} {d : Def} {uri : String}

/-- The label is the one with which the loop gives up because of the limit. -/
def isExceed : RunLabel → Bool
  | .exceed => true
  | _ => false

theorem run_reach {r r' : RunSt} {l : RunLabel} (hr : Reach prio d uri r.st) (h : r.step prio limit l = some r') : Reach prio d uri r'.st := by
  rcases run_step h with ⟨k, hk, _⟩ | ⟨hst, _⟩
  · exact .step hr hk
  · rw [hst]; exact hr

/-- What a step does. -/
theorem demand_step {r r' : RunSt} {l : RunLabel} (h : r.demand prio limit l = some r') :
    (r'.phase = r.phase ∧ r'.told = r.told ∧ isExceed l = false ∧ r'.count = r.count + (if isTake l then 1 else 0) ∧
      (isTake l = true → r.phase = .loop ∧ r.count ≤ limit)) ∨
    (l = .exceed ∧ r.phase = .loop ∧ r'.phase = .over ∧ r'.told = r.told ∧ limit < r.count ∧ r'.count = r.count) ∨
    (l = .leave ∧ r.phase = .loop ∧ r'.phase = .after ∧ r'.told = r.told ∧ r'.count = r.count) ∨
    (l = .report ∧ r.phase = .over ∧ r'.phase = .after ∧ r'.told = .limit :: r.told ∧ r'.count = r.count) ∨
    (l = .report ∧ r.phase = .after ∧ r'.phase = .ended ∧ r'.told = toldFor r.st.inst.status ++ r.told ∧ r'.count = r.count) := by
  cases l with
  | report =>
    have h : demandReport r = some r' := h
    unfold demandReport at h
    split at h
    · rename_i hp
      cases h
      exact .inr (.inr (.inr (.inl ⟨rfl, hp, rfl, rfl, rfl⟩)))
    · rename_i hp
      cases h
      exact .inr (.inr (.inr (.inr ⟨rfl, hp, rfl, rfl, rfl⟩)))
    · cases h
  | take g =>
    have h : r.step prio limit (.take g) = some r' := h
    rcases run_step h with ⟨k, _, ht, hp, ⟨_, _, _, hl, hle, hc⟩ | ⟨h1, _⟩⟩ | ⟨_, _, h1, _⟩
    · exact .inl ⟨hp, ht, rfl, hc, fun _ => ⟨hl, hle⟩⟩
    · cases h1
    · cases h1
  | exceed =>
    have h : r.step prio limit .exceed = some r' := h
    rcases run_step h with ⟨k, _, _, _, ⟨_, h0, _⟩ | ⟨_, h1, _⟩⟩ | ⟨_, hc, _, _, h1 | h1 | h1 | h1⟩
    · cases h0
    · cases h1
    · exact .inr (.inl ⟨rfl, h1.2.1, h1.2.2.2.2.2.1, h1.2.2.2.2.2.2, h1.2.2.1, hc⟩)
    · cases h1.1
    · cases h1.1
    · cases h1.1
  | leave =>
    have h : r.step prio limit .leave = some r' := h
    rcases run_step h with ⟨k, _, _, _, ⟨_, h0, _⟩ | ⟨_, h1, _⟩⟩ | ⟨_, hc, _, _, h1 | h1 | h1 | h1⟩
    · cases h0
    · cases h1
    · cases h1.1
    · exact .inr (.inr (.inl ⟨rfl, h1.2.1, h1.2.2.2.1, h1.2.2.2.2, hc⟩))
    · cases h1.1
    · cases h1.1
  | exec g x =>
    have h : r.step prio limit (.exec g x) = some r' := h
    rcases run_step h with ⟨k, _, ht, hp, ⟨_, h0, _⟩ | ⟨_, _, hc⟩⟩ | ⟨_, _, _, h1, _⟩
    · cases h0
    · exact .inl ⟨hp, ht, rfl, hc.trans (Int.add_zero _).symm, (fun hx => by cases hx)⟩
    · cases h1
  | next g =>
    have h : r.step prio limit (.next g) = some r' := h
    rcases run_step h with ⟨k, _, ht, hp, ⟨_, h0, _⟩ | ⟨_, _, hc⟩⟩ | ⟨_, _, _, h1, _⟩
    · cases h0
    · exact .inl ⟨hp, ht, rfl, hc.trans (Int.add_zero _).symm, (fun hx => by cases hx)⟩
    · cases h1

/-- What has been delivered so far, by the phase of the run: `b` says that the limit was exceeded. -/
def Delivered (b : Bool) (r : RunSt) : Prop :=
  match r.phase with
  | .loop => r.told = [] ∧ b = false
  | .over => r.told = [] ∧ b = true
  | .after => r.told = if b then [.limit] else []
  | .ended => ∃ st, r.told = toldFor st ++ if b then [.limit] else []

theorem Delivered.step {b : Bool} {r r' : RunSt} {l : RunLabel} (hd : Delivered b r) (h : r.demand prio limit l = some r') :
    Delivered (b || isExceed l) r' := by
  rcases demand_step h with ⟨hp, ht, hl, _⟩ | ⟨rfl, hp, hp', ht, _⟩ | ⟨rfl, hp, hp', ht, _⟩ | ⟨rfl, hp, hp', ht, _⟩ | ⟨rfl, hp, hp', ht, _⟩
  · rw [hl, Bool.or_false]
    unfold Delivered at hd ⊢
    rw [hp, ht]; exact hd
  · unfold Delivered at hd ⊢
    rw [hp] at hd
    rw [hp', ht]
    exact ⟨hd.1, by cases b <;> rfl⟩
  · unfold Delivered at hd ⊢
    rw [hp] at hd
    rw [hp', ht]
    show r.told = if (b || false) then _ else _
    rw [hd.1, hd.2]; rfl
  · unfold Delivered at hd ⊢
    rw [hp] at hd
    rw [hp', ht]
    show Told.limit :: r.told = if (b || false) then _ else _
    rw [hd.1, hd.2]; rfl
  · unfold Delivered at hd ⊢
    rw [hp] at hd
    rw [hp', ht]
    refine ⟨r.st.inst.status, ?_⟩
    show _ = _ ++ if (b || false) then _ else _
    rw [Bool.or_false]
    exact congrArg _ hd

theorem Delivered.all : ∀ (ls : List RunLabel) {b : Bool} {r r' : RunSt}, Delivered b r → r.demands prio limit ls = some r' →
    Delivered (b || ls.any isExceed) r'
  | [], b, r, r', hd, h => by cases h; simpa using hd
  | l :: ls, b, r, r', hd, h => by
    have h : (r.demand prio limit l).bind (fun r' => r'.demands prio limit ls) = some r' := h
    cases hs : r.demand prio limit l with
    | none => rw [hs] at h; cases h
    | some r1 =>
      rw [hs] at h
      have := Delivered.all ls (hd.step hs) h
      rw [List.any_cons, ← Bool.or_assoc]; exact this

/-- C54 in concurrent mode: after the identifier a run delivers at most one result, unless the limit is exceeded; then it delivers the
error of the limit, and possibly a second result behind it. Nothing is delivered while the loop works.

Partial: that a second result can follow is shown by `C54_negation_concurrent`; the identifier is that of `C54_first`. -/
theorem _root_.Flow.C54_concurrent_partial {ls : List RunLabel} {r : RunSt} (h : (RunSt.init d uri).demands prio limit ls = some r) :
    (ls.any isExceed = false → r.told = [] ∨ r.told = [.data] ∨ r.told = [.error]) ∧
    (ls.any isExceed = true → r.told = [] ∨ r.told = [.limit] ∨ r.told = [.data, .limit] ∨ r.told = [.error, .limit]) ∧
    (r.phase = .loop → r.told = []) := by
  have hd := Delivered.all ls (show Delivered false (RunSt.init d uri) from ⟨rfl, rfl⟩) h
  rw [Bool.false_or] at hd
  have key : ∀ st, toldFor st = [] ∨ toldFor st = [.data] ∨ toldFor st = [.error] := by intro st; cases st <;> simp [toldFor]
  unfold Delivered at hd
  refine ⟨fun hb => ?_, fun hb => ?_, fun hp => ?_⟩
  · rw [hb] at hd
    split at hd
    · exact .inl hd.1
    · cases hd.2
    · exact .inl hd
    · obtain ⟨st, hd⟩ := hd
      have hd : r.told = toldFor st ++ [] := hd
      rw [hd, List.append_nil]; exact key st
  · rw [hb] at hd
    split at hd
    · cases hd.2
    · exact .inl hd.1
    · exact .inr (.inl hd)
    · obtain ⟨st, hd⟩ := hd
      have hd : r.told = toldFor st ++ [.limit] := hd
      rw [hd]
      rcases key st with h1 | h1 | h1 <;> rw [h1]
      · exact .inr (.inl rfl)
      · exact .inr (.inr (.inl rfl))
      · exact .inr (.inr (.inr rfl))
  · rw [hp] at hd; exact hd.1

/-- The counter of the loop is the number of items it has taken; when the limit was exceeded they are more than the limit. -/
theorem demand_count : ∀ (ls : List RunLabel) {r r' : RunSt}, (r.phase = .over → limit < r.count) → r.demands prio limit ls = some r' →
    r'.count = r.count + (ls.countP isTake : Nat) ∧ (r'.phase = .over → limit < r'.count)
  | [], r, r', hi, h => by cases h; exact ⟨by simp, hi⟩
  | l :: ls, r, r', hi, h => by
    have h : (r.demand prio limit l).bind (fun r' => r'.demands prio limit ls) = some r' := h
    cases hs : r.demand prio limit l with
    | none => rw [hs] at h; cases h
    | some r1 =>
      rw [hs] at h
      have h1 : r1.count = r.count + (if isTake l then 1 else 0) ∧ (r1.phase = .over → limit < r1.count) := by
        rcases demand_step hs with ⟨hp, _, _, hc, ht⟩ | ⟨rfl, _, _, _, hlt, hc⟩ | ⟨rfl, _, hp', _, hc⟩ | ⟨rfl, _, hp', _, hc⟩ | ⟨rfl, _, hp', _, hc⟩
        · refine ⟨hc, fun hx => ?_⟩
          rw [hp] at hx
          have hl : isTake l = false := by
            cases hl : isTake l with
            | false => rfl
            | true =>
              have := (ht hl).1
              rw [hx] at this; cases this
          rw [hc, hl]
          have := hi hx
          show limit < r.count + 0
          omega
        · exact ⟨by rw [hc]; show r.count = r.count + 0; omega, fun _ => by rw [hc]; exact hlt⟩
        · exact ⟨by rw [hc]; show r.count = r.count + 0; omega, fun hx => by rw [hp'] at hx; cases hx⟩
        · exact ⟨by rw [hc]; show r.count = r.count + 0; omega, fun hx => by rw [hp'] at hx; cases hx⟩
        · exact ⟨by rw [hc]; show r.count = r.count + 0; omega, fun hx => by rw [hp'] at hx; cases hx⟩
      obtain ⟨h2, h3⟩ := demand_count ls h1.2 h
      refine ⟨?_, h3⟩
      rw [h2, h1.1, List.countP_cons]
      cases isTake l <;> simp <;> omega

/-- C54 in concurrent mode: a result is true at the moment it is delivered: data if the flow has completed, its error if it has failed,
the error of the limit if more items than the limit allows were executed.

Partial: the flow can change afterwards, as in C100. -/
theorem _root_.Flow.C54_concurrent_truth_partial {ls : List RunLabel} {r r' : RunSt} {l : RunLabel} (h : (RunSt.init d uri).demands prio limit ls = some r)
    (hs : r.demand prio limit l = some r') {x : Told} (hx : r'.told = x :: r.told) :
    (x = .data ∧ r.st.inst.status = .completed) ∨ (x = .error ∧ r.st.inst.status = .failed) ∨
    (x = .limit ∧ limit < (ls.countP isTake : Nat)) := by
  have hne : ∀ (a : List Told), a ≠ x :: a := fun a hc => by
    have := congrArg List.length hc
    simp at this
  obtain ⟨hc, hov⟩ := demand_count (prio := prio) (limit := limit) ls (r := RunSt.init d uri) (fun h => by cases h) h
  rcases demand_step hs with ⟨_, ht, _⟩ | ⟨_, _, _, ht, _⟩ | ⟨_, _, _, ht, _⟩ | ⟨_, hp, _, ht, _⟩ | ⟨_, _, _, ht, _⟩
  · rw [ht] at hx; exact absurd hx (hne _)
  · rw [ht] at hx; exact absurd hx (hne _)
  · rw [ht] at hx; exact absurd hx (hne _)
  · rw [ht] at hx
    cases hx
    refine .inr (.inr ⟨rfl, ?_⟩)
    have h1 := hov hp
    rw [hc] at h1
    have h0 : (RunSt.init d uri).count = 0 := rfl
    rw [h0] at h1
    omega
  · rw [ht] at hx
    cases hst : r.st.inst.status with
    | completed => rw [hst] at hx; cases hx; exact .inl ⟨rfl, rfl⟩
    | failed => rw [hst] at hx; cases hx; exact .inr (.inl ⟨rfl, rfl⟩)
    | _ => rw [hst] at hx; exact absurd hx (hne _)

/-- A step of the run is a step of the goroutines or leaves them as they are. -/
theorem demand_reach {r r' : RunSt} {l : RunLabel} (hr : Reach prio d uri r.st) (h : r.demand prio limit l = some r') : Reach prio d uri r'.st := by
  cases l with
  | report =>
    have h : demandReport r = some r' := h
    unfold demandReport at h
    split at h
    · cases h; exact hr
    · cases h; exact hr
    · cases h
  | take g => exact run_reach (limit := limit) hr (l := .take g) h
  | exceed => exact run_reach (limit := limit) hr (l := .exceed) h
  | leave => exact run_reach (limit := limit) hr (l := .leave) h
  | exec g x => exact run_reach (limit := limit) hr (l := .exec g x) h
  | next g => exact run_reach (limit := limit) hr (l := .next g) h

theorem demands_reach : ∀ (ls : List RunLabel) {r r' : RunSt}, Reach prio d uri r.st → r.demands prio limit ls = some r' → Reach prio d uri r'.st
  | [], r, r', hr, h => by cases h; exact hr
  | l :: ls, r, r', hr, h => by
    have h : (r.demand prio limit l).bind (fun r' => r'.demands prio limit ls) = some r' := h
    cases hs : r.demand prio limit l with
    | none => rw [hs] at h; cases h
    | some r1 => rw [hs] at h; exact demands_reach ls (demand_reach hr hs) h

/-- C54 in concurrent mode: the flow is executed like every other one, so what is shown of all interleavings holds for it. -/
theorem _root_.Flow.C54_concurrent_same {ls : List RunLabel} {r : RunSt} (h : (RunSt.init d uri).demands prio limit ls = some r) :
    Reach prio d uri r.st := demands_reach ls .init h

/-- C54 in concurrent mode: at most one item more than the limit allows is executed. -/
theorem _root_.Flow.C54_concurrent_limit {ls : List RunLabel} {r : RunSt} (h : (RunSt.init d uri).demands prio limit ls = some r) :
    ((ls.countP isTake : Nat) : Int) ≤ max 0 (limit + 1) := by
  have bound : ∀ (ls : List RunLabel) {r r' : RunSt}, r.count ≤ max 0 (limit + 1) → r.demands prio limit ls = some r' →
      r'.count ≤ max 0 (limit + 1) := by
    intro ls
    induction ls with
    | nil => intro r r' hb h; cases h; exact hb
    | cons l ls ih =>
      intro r r' hb h
      have h : (r.demand prio limit l).bind (fun r' => r'.demands prio limit ls) = some r' := h
      cases hs : r.demand prio limit l with
      | none => rw [hs] at h; cases h
      | some r1 =>
        rw [hs] at h
        refine ih ?_ h
        rcases demand_step hs with ⟨_, _, _, hc, ht⟩ | ⟨_, _, _, _, _, hc⟩ | ⟨_, _, _, _, hc⟩ | ⟨_, _, _, _, hc⟩ | ⟨_, _, _, _, hc⟩
        · rw [hc]
          cases hl : isTake l with
          | false => show r.count + 0 ≤ _; omega
          | true =>
            have := (ht hl).2
            show r.count + 1 ≤ _
            omega
        · rw [hc]; exact hb
        · rw [hc]; exact hb
        · rw [hc]; exact hb
        · rw [hc]; exact hb
  have h1 := bound ls (r := RunSt.init d uri) (by show (0 : Int) ≤ _; omega) h
  have h2 := (demand_count (prio := prio) (limit := limit) ls (r := RunSt.init d uri) (fun h => by cases h) h).1
  have h0 : (RunSt.init d uri).count = 0 := rfl
  rw [h0] at h2
  omega

/-- C54 in concurrent mode: as soon as the flow has completed or failed its result can be delivered, and it is the only one. -/
theorem _root_.Flow.C54_concurrent_delivers {ls : List RunLabel} {r : RunSt} (h : (RunSt.init d uri).demands prio limit ls = some r)
    (hp : r.phase = .loop) (h0 : r.st.gs 0 = []) :
    (r.st.inst.status = .completed → ∃ r', r.demands prio limit [.leave, .report] = some r' ∧ r'.told = [.data] ∧ r'.phase = .ended) ∧
    (r.st.inst.status = .failed → ∃ r', r.demands prio limit [.leave, .report] = some r' ∧ r'.told = [.error] ∧ r'.phase = .ended) := by
  have he := (C54_concurrent_partial h).2.2 hp
  have key : r.st.inst.status ≠ .active →
      ∃ r', r.demands prio limit [.leave, .report] = some r' ∧ r'.told = toldFor r.st.inst.status ∧ r'.phase = .ended := by
    intro hst
    have h1 : r.demand prio limit .leave = some { r with phase := .after } := if_pos ⟨hp, by rw [h0]; rfl, hst⟩
    refine ⟨{ r with phase := .ended, told := toldFor r.st.inst.status ++ r.told }, ?_, by rw [he]; exact List.append_nil _, rfl⟩
    show (r.demand prio limit .leave).bind (fun r' => r'.demands prio limit [.report]) = _
    rw [h1]; rfl
  refine ⟨fun hc => ?_, fun hf => ?_⟩
  · obtain ⟨r', h1, h2, h3⟩ := key (by rw [hc]; decide)
    exact ⟨r', h1, by rw [h2, hc]; rfl, h3⟩
  · obtain ⟨r', h1, h2, h3⟩ := key (by rw [hf]; decide)
    exact ⟨r', h1, by rw [h2, hf]; rfl, h3⟩

/-- A and C are to be executed, the limit allows one item; A returns explicitly after the error of the limit was delivered. -/
def lateDemand : List RunLabel :=
  asRuns (nexts 0 8 ++ [.pop 1]) ++ [.exceed, .report] ++ asRuns ([.exec 1 (.done (fun _ => .ok true) true)] ++ nexts 1 2) ++ [.report]

-- the hypotheses hold: a run without and one with the error of the limit
example : ∃ r, (RunSt.init pairDef "u").demands true 10 reportedEarly = some r ∧ r.told = [.data] ∧ reportedEarly.any isExceed = false :=
  ⟨_, rfl, by decide +kernel, by decide +kernel⟩
example : ∃ r, (RunSt.init pairDef "u").demands true 0 (asRuns (nexts 0 8 ++ [.pop 1]) ++ [.exceed, .report, .report]) = some r ∧ r.told = [.limit] :=
  ⟨_, rfl, by decide +kernel⟩

-- C54_concurrent_delivers: A has returned explicitly and C is still running
example : ∃ r, (RunSt.init pairDef "u").demands true 10 (asRuns (nexts 0 8 ++ [.pop 1, .pop 2, .exec 1 (.done (fun _ => .ok true) true)] ++ nexts 1 2)) =
    some r ∧ r.phase = .loop ∧ (r.st.gs 0).isEmpty = true ∧ r.st.inst.status = .completed := ⟨_, rfl, by decide +kernel, by decide +kernel, by decide +kernel⟩

/-- C54 fails in concurrent mode: the error of the limit and then the data of the completed flow are delivered. -/
theorem _root_.Flow.C54_negation_concurrent : ∃ r, (RunSt.init pairDef "u").demands true 0 lateDemand = some r ∧ r.told = [.data, .limit] ∧
    r.st.inst.status = .completed := ⟨_, rfl, by decide +kernel, by decide +kernel⟩

end Flow.Conc
