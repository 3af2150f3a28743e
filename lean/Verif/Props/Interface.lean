import Verif.Proofs.Interface

/-
C95: the interface of a called flow, asked for by any number of goroutines.
-/

namespace Flow
namespace Iface

variable {M : Type}

/-- C95: no two goroutines determine the interface at the same time. -/
theorem C95_exclusive {s : St M} (h : Reach s) {g k : Nat} (hg : Determines s g) (hk : Determines s k) : g = k := by
  have key : ∀ {g : Nat}, Determines s g → inside (s.pc g) = true := by
    rintro g (h | ⟨m, h⟩ | h) <;> rw [h] <;> rfl
  exact (Inv.reach h).one (key hk) (key hg)

/-- C95: the interface is found at most once, and what callers read is nothing or that interface. -/
theorem C95_once {s : St M} (h : Reach s) : (found s).length ≤ 1 ∧ ∀ a ∈ s.answers, a.2 = none ∨ found s = [a.2] := by
  have hi := Inv.reach h
  refine ⟨?_, fun a ha => (hi.answers a ha).imp (fun h => h) (fun h => h.1)⟩
  cases hu : s.updated with
  | true => rw [hi.known hu]; exact Nat.le_refl _
  | false =>
    by_cases hall : ∀ k, finding (s.pc k) = false
    · rw [(hi.fresh hu hall).1]; exact Nat.zero_le _
    · obtain ⟨k, hk⟩ := Classical.not_forall.1 hall
      cases hpk : s.pc k with
      | write m' => rw [(hi.write k m' hpk).2.1]; exact Nat.le_refl _
      | store => rw [(hi.store k hpk).2]; exact Nat.le_refl _
      | _ => rw [hpk] at hk; exact absurd rfl hk

/-- C95: once a caller has read the interface, every later caller reads the same, and nobody looks for it again. -/
theorem C95_settled {s s' : St M} (h : Reach s) {g : Nat} {m : M} (ha : (g, some m) ∈ s.answers) (hc : Cont s s') :
    s'.lookups = s.lookups ∧ ∃ l, s'.answers = l ++ s.answers ∧ ∀ a ∈ l, a.2 = some m := by
  have hmd : s.md = some m := by
    rcases (Inv.reach h).answers _ ha with hx | hx
    · cases hx
    · exact hx.2
  suffices hh : Reach s' ∧ s'.md = some m ∧ s'.lookups = s.lookups ∧ ∃ l, s'.answers = l ++ s.answers ∧ ∀ a ∈ l, a.2 = some m from hh.2.2
  induction hc with
  | refl => exact ⟨h, hmd, rfl, [], rfl, (fun _ h => nomatch h)⟩
  | @step t u l _ hs ih =>
    obtain ⟨h1, h2, h3, L, h4, h5⟩ := ih
    have hi := Inv.reach h1
    have hf := hi.md (by rw [h2]; exact fun h => nomatch h)
    refine ⟨.step l h1 hs, ?_⟩
    cases l with
    | define k => cases hs; exact ⟨h2, h3, L, h4, h5⟩
    | go k =>
      unfold Iface.step at hs
      dsimp only at hs
      cases hp : t.pc k with
      | look =>
        have := (hi.look k hp).2
        rw [hf] at this; cases this
      | write x =>
        have := (hi.write k x hp).2.2
        rw [h2] at this; cases this
      | lock =>
        rw [hp] at hs
        dsimp only at hs
        cases hh : t.holder with
        | some j => rw [hh] at hs; cases hs
        | none => rw [hh] at hs; cases hs; exact ⟨h2, h3, L, h4, h5⟩
      | read =>
        rw [hp] at hs; cases hs
        refine ⟨h2, h3, (k, t.md) :: L, by show (k, t.md) :: t.answers = _; rw [h4]; rfl, fun a ha => ?_⟩
        rcases List.mem_cons.1 ha with rfl | ha
        · exact h2
        · exact h5 a ha
      | _ => rw [hp] at hs; cases hs; exact ⟨h2, h3, L, h4, h5⟩

/-- C95: a caller that is alone reads the interface found before, without looking for it, or, if none was found, the interface of the
flow that the URI denotes now; a failure is not remembered. -/
theorem C95_alone {s : St M} (h : Reach s) (hq : Quiet s) (g : Nat) :
    ∃ n s', alone g n s = some s' ∧ Quiet s' ∧
      (∀ m, found s = [m] → s'.lookups = s.lookups ∧ s'.answers = (g, m) :: s.answers) ∧
      (found s = [] → s'.lookups = s.known :: s.lookups ∧ s'.answers = (g, s.known.join) :: s.answers) := by
  have hi := Inv.reach h
  have hh : s.holder = none := by
    cases hh : s.holder with
    | none => rfl
    | some k => have := (hi.mutex k).2 hh; rw [hq k] at this; cases this
  have e1 : step s (.go g) = some { s with pc := s.at g .load } := step_idle (hq g)
  cases hu : s.updated with
  | true =>
    refine ⟨3, _, alone_cons e1 (alone_cons (step_load (at_self _ _ _)) (alone_cons (step_read ?_) rfl)), ?_, ?_, ?_⟩
    · exact (at_self _ _ _).trans (if_pos hu)
    · intro k
      by_cases hk : k = g
      · subst hk; exact at_self _ _ _
      · exact (at_ne _ _ hk).trans ((at_ne _ _ hk).trans ((at_ne _ _ hk).trans (hq k)))
    · intro m hm
      have := hi.known hu
      rw [hm] at this
      cases this
      exact ⟨rfl, rfl⟩
    · intro hm
      have := hi.known hu
      rw [hm] at this
      cases this
  | false =>
    have hf := hi.fresh hu (fun k => by rw [hq k]; rfl)
    cases hk : s.known with
    | none =>
      refine ⟨7, _, alone_cons e1 (alone_cons (step_load (at_self _ _ _)) (alone_cons (step_lock ((at_self _ _ _).trans (if_neg ?_)) hh)
        (alone_cons (step_test (at_self _ _ _)) (alone_cons (step_fails ((at_self _ _ _).trans (if_neg ?_)) hk)
        (alone_cons (step_unlock (at_self _ _ _)) (alone_cons (step_read (at_self _ _ _)) rfl)))))), ?_, ?_, ?_⟩
      · exact fun h => nomatch hu.symm.trans h
      · exact fun h => nomatch hu.symm.trans h
      · intro k
        by_cases hk : k = g
        · subst hk; exact at_self _ _ _
        · simp only [St.at, if_neg hk]; exact hq k
      · intro m hm; rw [hf.1] at hm; cases hm
      · intro _
        exact ⟨rfl, congrArg (fun x => (g, x) :: s.answers) hf.2⟩
    | some m =>
      refine ⟨9, _, alone_cons e1 (alone_cons (step_load (at_self _ _ _)) (alone_cons (step_lock ((at_self _ _ _).trans (if_neg ?_)) hh)
        (alone_cons (step_test (at_self _ _ _)) (alone_cons (step_finds ((at_self _ _ _).trans (if_neg ?_)) hk)
        (alone_cons (step_write (at_self _ _ _)) (alone_cons (step_store (at_self _ _ _))
        (alone_cons (step_unlock (at_self _ _ _)) (alone_cons (step_read (at_self _ _ _)) rfl)))))))), ?_, ?_, ?_⟩
      · exact fun h => nomatch hu.symm.trans h
      · exact fun h => nomatch hu.symm.trans h
      · intro k
        by_cases hk : k = g
        · subst hk; exact at_self _ _ _
        · simp only [St.at, if_neg hk]; exact hq k
      · intro m hm; rw [hf.1] at hm; cases hm
      · intro _
        exact ⟨rfl, rfl⟩

/-- C95: as long as a call is under way, some goroutine can go on. -/
theorem C95_progress {s : St M} (h : Reach s) (hq : ¬ Quiet s) : ∃ g, s.pc g ≠ .idle ∧ (step s (.go g)).isSome = true := by
  have hi := Inv.reach h
  obtain ⟨g, hg⟩ := Classical.not_forall.1 hq
  by_cases hl : s.pc g = .lock
  · cases hh : s.holder with
    | none =>
      refine ⟨g, hg, ?_⟩
      unfold Iface.step
      dsimp only
      rw [hl]; dsimp only; rw [hh]; rfl
    | some k =>
      have hk := (hi.mutex k).2 hh
      refine ⟨k, fun hx => ?_, ?_⟩
      · rw [hx] at hk; cases hk
      · exact step_some (fun hx => by rw [hx] at hk; cases hk)
  · exact ⟨g, hg, step_some hl⟩

/-- The labels in order, as far as they are possible. -/
def exec (s : St M) : List (Label M) → St M
  | [] => s
  | l :: ls =>
    match step s l with
    | none => exec s ls
    | some t => exec t ls

theorem Reach.exec {s : St M} (h : Reach s) (ls : List (Label M)) : Reach (exec s ls) := by
  induction ls generalizing s with
  | nil => exact h
  | cons l ls ih =>
    unfold Iface.exec
    cases hs : Iface.step s l with
    | none => exact ih h
    | some t => exact ih (.step l h hs)

theorem Cont.exec {s t : St M} (h : Cont s t) (ls : List (Label M)) : Cont s (Iface.exec t ls) := by
  induction ls generalizing t with
  | nil => exact h
  | cons l ls ih =>
    unfold Iface.exec
    cases hs : Iface.step t l with
    | none => exact ih h
    | some u => exact ih (.step l h hs)

/-- Two goroutines ask at the same time: the second waits for the mutex, then reads what the first found. -/
def twoAsk : List (Label Nat) :=
  .define (some (some 7)) ::
    [0, 1, 0, 1, 0, 1, 0, 1, 0, 0, 0, 0, 0, 1, 1, 1, 1].map .go

/-- C95, the hypotheses of `C95_exclusive`, `C95_once` and `C95_settled` are met: both goroutines read the interface, which was looked for
once. -/
example : Reach (exec {} twoAsk) ∧ (exec {} twoAsk).lookups = [some (some 7)] ∧
    (exec {} twoAsk).answers = [(1, some 7), (0, some 7)] ∧ (exec {} (twoAsk.take 10)).pc 0 = .write (some 7) ∧
    (exec {} (twoAsk.take 10)).pc 1 = .lock :=
  ⟨.exec .init _, rfl, rfl, rfl, rfl⟩

/-- C95, violated: a flow that is replaced after its interface was found keeps the interface it had, whoever asks. -/
theorem C95_negation_stale : ∃ (s s' : St Nat), Reach s ∧ Quiet s ∧ Cont s s' ∧ Quiet s' ∧
    s'.known = some (some 8) ∧ s'.answers = (0, some 7) :: s.answers :=
  ⟨exec {} twoAsk, exec (exec {} twoAsk) [.define (some (some 8)), .go 0, .go 0, .go 0], .exec .init _,
    (fun g => by
      match g with
      | 0 => rfl
      | 1 => rfl
      | n + 2 => rfl), .exec (.refl _) _,
    (fun g => by
      match g with
      | 0 => rfl
      | 1 => rfl
      | n + 2 => rfl), rfl, rfl⟩

end Iface
end Flow
