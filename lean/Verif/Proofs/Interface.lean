import Verif.Spec.Interface

/-
The invariant of the metadata of the activity that calls a flow.
-/

namespace Flow
namespace Iface

variable {M : Type}

/-- The goroutine is between taking and releasing the mutex. -/
def inside : Pc M → Bool
  | .test => true
  | .look => true
  | .write _ => true
  | .store => true
  | .unlock => true
  | _ => false

/-- The goroutine has found the interface and not yet announced it. -/
def finding : Pc M → Bool
  | .write _ => true
  | .store => true
  | _ => false

theorem at_self (s : St M) (g : Nat) (p : Pc M) : s.at g p g = p := by unfold St.at; rw [if_pos rfl]
theorem at_ne (s : St M) {g h : Nat} (p : Pc M) (hn : h ≠ g) : s.at g p h = s.pc h := by unfold St.at; rw [if_neg hn]

/-- What holds in every execution. -/
structure Inv (s : St M) : Prop where
  mutex : ∀ g, inside (s.pc g) = true ↔ s.holder = some g
  look : ∀ g, s.pc g = .look → s.updated = false ∧ found s = []
  write : ∀ g m, s.pc g = .write m → s.updated = false ∧ found s = [m] ∧ s.md = none
  store : ∀ g, s.pc g = .store → s.updated = false ∧ found s = [s.md]
  known : s.updated = true → found s = [s.md]
  fresh : s.updated = false → (∀ g, finding (s.pc g) = false) → found s = [] ∧ s.md = none
  answers : ∀ a ∈ s.answers, a.2 = none ∨ found s = [a.2] ∧ s.md = a.2

theorem Inv.init : Inv ({} : St M) :=
  ⟨fun _ => Iff.intro (fun h => nomatch h) (fun h => nomatch h), (fun _ h => nomatch h), (fun _ _ h => nomatch h), (fun _ h => nomatch h), (fun h => nomatch h),
    fun _ _ => ⟨rfl, rfl⟩, (fun _ h => nomatch h)⟩

/-- Only one goroutine is inside. -/
theorem Inv.one {s : St M} (h : Inv s) {g k : Nat} (hg : inside (s.pc g) = true) (hk : inside (s.pc k) = true) : k = g := by
  have h1 := (h.mutex g).1 hg
  have h2 := (h.mutex k).1 hk
  rw [h1] at h2
  exact (Option.some.inj h2).symm

/-- A goroutine that is inside keeps all others from finding something. -/
theorem Inv.others {s : St M} (h : Inv s) {g : Nat} (hg : inside (s.pc g) = true) {k : Nat} (hk : k ≠ g) : finding (s.pc k) = false := by
  cases hp : s.pc k with
  | write m => exact absurd (h.one hg (k := k) (by rw [hp]; rfl)) hk
  | store => exact absurd (h.one hg (k := k) (by rw [hp]; rfl)) hk
  | _ => rfl

/-- What is stored was found. -/
theorem Inv.md {s : St M} (h : Inv s) (hmd : s.md ≠ none) : found s = [s.md] := by
  cases hu : s.updated with
  | true => exact h.known hu
  | false =>
    by_cases hall : ∀ k, finding (s.pc k) = false
    · exact absurd (h.fresh hu hall).2 hmd
    · obtain ⟨k, hk⟩ := Classical.not_forall.1 hall
      cases hpk : s.pc k with
      | write m' => exact absurd (h.write k m' hpk).2.2 hmd
      | store => exact (h.store k hpk).2
      | _ => rw [hpk] at hk; exact absurd rfl hk

/-- A step of `g` that changes only where it is, between two places of the same kind. -/
theorem Inv.move {s : St M} (h : Inv s) {g : Nat} {p : Pc M} (hi : inside p = inside (s.pc g)) (hf : finding p = false) (hf' : finding (s.pc g) = false)
    (hl : p = .look → s.updated = false ∧ found s = []) : Inv { s with pc := s.at g p } := by
  refine ⟨fun k => ?_, fun k hk => ?_, fun k m hk => ?_, fun k hk => ?_, h.known, fun hu hn => ?_, h.answers⟩
  · show inside (s.at g p k) = true ↔ s.holder = some k
    by_cases hkg : k = g
    · subst hkg; rw [at_self, hi]; exact h.mutex k
    · rw [at_ne _ _ hkg]; exact h.mutex k
  · have hk' : s.at g p k = .look := hk
    by_cases hkg : k = g
    · subst hkg; rw [at_self] at hk'; exact hl hk'
    · rw [at_ne _ _ hkg] at hk'; exact h.look k hk'
  · have hk' : s.at g p k = .write m := hk
    by_cases hkg : k = g
    · subst hkg; rw [at_self] at hk'; rw [hk'] at hf; cases hf
    · rw [at_ne _ _ hkg] at hk'; exact h.write k m hk'
  · have hk' : s.at g p k = .store := hk
    by_cases hkg : k = g
    · subst hkg; rw [at_self] at hk'; rw [hk'] at hf; cases hf
    · rw [at_ne _ _ hkg] at hk'; exact h.store k hk'
  · refine h.fresh hu fun k => ?_
    by_cases hkg : k = g
    · subst hkg; exact hf'
    · have := hn k
      have e : ({ s with pc := s.at g p } : St M).pc k = s.pc k := at_ne _ _ hkg
      rw [e] at this; exact this

theorem Inv.step {s s' : St M} {l : Label M} (h : Inv s) (hs : step s l = some s') : Inv s' := by
  cases l with
  | define k => cases hs; exact ⟨h.mutex, h.look, h.write, h.store, h.known, h.fresh, h.answers⟩
  | go g =>
    unfold Iface.step at hs
    dsimp only at hs
    cases hp : s.pc g with
    | idle => rw [hp] at hs; cases hs; exact h.move (by rw [hp]; rfl) rfl (by rw [hp]; rfl) (fun h => nomatch h)
    | load =>
      rw [hp] at hs; cases hs
      refine h.move (by rw [hp]; split <;> rfl) (by split <;> rfl) (by rw [hp]; rfl) (fun h => ?_)
      split at h <;> cases h
    | lock =>
      rw [hp] at hs
      dsimp only at hs
      cases hh : s.holder with
      | some k => rw [hh] at hs; cases hs
      | none =>
        rw [hh] at hs; cases hs
        refine ⟨fun k => ?_, fun k hk => ?_, fun k m hk => ?_, fun k hk => ?_, h.known, fun hu hn => ?_, h.answers⟩
        · show inside (s.at g .test k) = true ↔ some g = some k
          by_cases hkg : k = g
          · subst hkg; rw [at_self]; exact Iff.intro (fun _ => rfl) (fun _ => rfl)
          · rw [at_ne _ _ hkg, h.mutex k, hh]
            exact Iff.intro (fun h => nomatch h) (fun h => absurd (Option.some.inj h).symm hkg)
        · have hk' : s.at g .test k = .look := hk
          by_cases hkg : k = g
          · subst hkg; rw [at_self] at hk'; cases hk'
          · rw [at_ne _ _ hkg] at hk'; exact h.look k hk'
        · have hk' : s.at g .test k = .write m := hk
          by_cases hkg : k = g
          · subst hkg; rw [at_self] at hk'; cases hk'
          · rw [at_ne _ _ hkg] at hk'; exact h.write k m hk'
        · have hk' : s.at g .test k = .store := hk
          by_cases hkg : k = g
          · subst hkg; rw [at_self] at hk'; cases hk'
          · rw [at_ne _ _ hkg] at hk'; exact h.store k hk'
        · refine h.fresh hu fun k => ?_
          by_cases hkg : k = g
          · subst hkg; rw [hp]; rfl
          · have := hn k
            have e : s.at g .test k = s.pc k := at_ne _ _ hkg
            rw [show ({ s with pc := s.at g .test, holder := some g } : St M).pc k = s.pc k from e] at this; exact this
    | test =>
      rw [hp] at hs; cases hs
      have hin : inside (s.pc g) = true := by rw [hp]; rfl
      refine h.move (by rw [hp]; split <;> rfl) (by split <;> rfl) (by rw [hp]; rfl) (fun hl => ?_)
      split at hl
      · cases hl
      · rename_i hu
        have hu' : s.updated = false := by simpa using hu
        refine ⟨hu', (h.fresh hu' fun k => ?_).1⟩
        by_cases hkg : k = g
        · subst hkg; rw [hp]; rfl
        · exact h.others hin hkg
    | look =>
      rw [hp] at hs; cases hs
      obtain ⟨hu, hf⟩ := h.look g hp
      have hin : inside (s.pc g) = true := by rw [hp]; rfl
      have hfr := h.fresh hu fun k => by
        by_cases hkg : k = g
        · subst hkg; rw [hp]; rfl
        · exact h.others hin hkg
      unfold St.looked
      cases hk : s.known with
      | none =>
        dsimp only
        have := h.move (g := g) (p := .unlock) (by rw [hp]; rfl) rfl (by rw [hp]; rfl) (fun h => nomatch h)
        exact ⟨this.mutex, this.look, this.write, this.store, this.known, this.fresh, this.answers⟩
      | some m =>
        dsimp only
        have hfound : found ({ s with pc := s.at g (.write m), lookups := some m :: s.lookups } : St M) = [m] := by
          show m :: found s = _
          rw [hf]
        refine ⟨fun k => ?_, fun k hk => ?_, fun k m' hk => ?_, fun k hk => ?_, fun hx => ?_, fun _ hn => ?_, fun a ha => ?_⟩
        · show inside (s.at g (.write m) k) = true ↔ s.holder = some k
          by_cases hkg : k = g
          · subst hkg; rw [at_self]; rw [← h.mutex k, hp]; exact Iff.rfl
          · rw [at_ne _ _ hkg]; exact h.mutex k
        · have hk' : s.at g (.write m) k = .look := hk
          by_cases hkg : k = g
          · subst hkg; rw [at_self] at hk'; cases hk'
          · rw [at_ne _ _ hkg] at hk'
            exact absurd (h.one hin (k := k) (by rw [hk']; rfl)) hkg
        · have hk' : s.at g (.write m) k = .write m' := hk
          by_cases hkg : k = g
          · subst hkg; rw [at_self] at hk'; cases hk'; exact ⟨hu, hfound, hfr.2⟩
          · rw [at_ne _ _ hkg] at hk'
            exact absurd (h.one hin (k := k) (by rw [hk']; rfl)) hkg
        · have hk' : s.at g (.write m) k = .store := hk
          by_cases hkg : k = g
          · subst hkg; rw [at_self] at hk'; cases hk'
          · rw [at_ne _ _ hkg] at hk'
            exact absurd (h.one hin (k := k) (by rw [hk']; rfl)) hkg
        · have hx' : s.updated = true := hx
          rw [hu] at hx'; cases hx'
        · have := hn g
          have e : ({ s with pc := s.at g (.write m), lookups := some m :: s.lookups } : St M).pc g = .write m := at_self _ _ _
          rw [e] at this; cases this
        · rcases h.answers a ha with hx | ⟨hx, _⟩
          · exact .inl hx
          · rw [hf] at hx; cases hx
    | write m =>
      rw [hp] at hs; cases hs
      obtain ⟨hu, hf, hmd⟩ := h.write g m hp
      have hin : inside (s.pc g) = true := by rw [hp]; rfl
      refine ⟨fun k => ?_, fun k hk => ?_, fun k m' hk => ?_, fun k hk => ⟨hu, hf⟩, fun hx => ?_, fun _ hn => ?_, fun a ha => ?_⟩
      · show inside (s.at g .store k) = true ↔ s.holder = some k
        by_cases hkg : k = g
        · subst hkg; rw [at_self]; rw [← h.mutex k, hp]; exact Iff.rfl
        · rw [at_ne _ _ hkg]; exact h.mutex k
      · have hk' : s.at g .store k = .look := hk
        by_cases hkg : k = g
        · subst hkg; rw [at_self] at hk'; cases hk'
        · rw [at_ne _ _ hkg] at hk'
          exact absurd (h.one hin (k := k) (by rw [hk']; rfl)) hkg
      · have hk' : s.at g .store k = .write m' := hk
        by_cases hkg : k = g
        · subst hkg; rw [at_self] at hk'; cases hk'
        · rw [at_ne _ _ hkg] at hk'
          exact absurd (h.one hin (k := k) (by rw [hk']; rfl)) hkg
      · have hx' : s.updated = true := hx
        rw [hu] at hx'; cases hx'
      · have := hn g
        have e : ({ s with pc := s.at g .store, md := m } : St M).pc g = .store := at_self _ _ _
        rw [e] at this; cases this
      · rcases h.answers a ha with hx | ⟨hx, hy⟩
        · exact .inl hx
        · right
          have : found s = [a.2] := hx
          rw [hf] at this
          cases this
          exact ⟨hf, rfl⟩
    | store =>
      rw [hp] at hs; cases hs
      obtain ⟨hu, hf⟩ := h.store g hp
      have hin : inside (s.pc g) = true := by rw [hp]; rfl
      have hno : ∀ (k : Nat) (p : Pc M), s.at g .unlock k = p → inside p = true → p ≠ .unlock → False := by
        intro k p hk' hi hne
        by_cases hkg : k = g
        · subst hkg; rw [at_self] at hk'; exact hne hk'.symm
        · rw [at_ne _ _ hkg] at hk'
          exact absurd (h.one hin (k := k) (by rw [hk']; exact hi)) hkg
      refine ⟨fun k => ?_, fun k hk => (hno k _ hk rfl (fun h => nomatch h)).elim, fun k m' hk => (hno k _ hk rfl (fun h => nomatch h)).elim,
        fun k hk => (hno k _ hk rfl (fun h => nomatch h)).elim, fun _ => hf, (fun hx => nomatch hx), h.answers⟩
      show inside (s.at g .unlock k) = true ↔ s.holder = some k
      by_cases hkg : k = g
      · subst hkg; rw [at_self]; rw [← h.mutex k, hp]; exact Iff.rfl
      · rw [at_ne _ _ hkg]; exact h.mutex k
    | unlock =>
      rw [hp] at hs; cases hs
      have hin : inside (s.pc g) = true := by rw [hp]; rfl
      have hno : ∀ (k : Nat) (p : Pc M), s.at g .read k = p → inside p = true → False := by
        intro k p hk' hi
        by_cases hkg : k = g
        · subst hkg; rw [at_self] at hk'; rw [← hk'] at hi; cases hi
        · rw [at_ne _ _ hkg] at hk'
          exact absurd (h.one hin (k := k) (by rw [hk']; exact hi)) hkg
      refine ⟨fun k => ?_, fun k hk => (hno k _ hk rfl).elim, fun k m' hk => (hno k _ hk rfl).elim,
        fun k hk => (hno k _ hk rfl).elim, h.known, fun hu _ => ?_, h.answers⟩
      · show inside (s.at g .read k) = true ↔ none = some k
        exact Iff.intro (fun hx => (hno k _ rfl hx).elim) (fun hx => nomatch hx)
      · refine h.fresh hu fun k => ?_
        by_cases hkg : k = g
        · subst hkg; rw [hp]; rfl
        · exact h.others hin hkg
    | read =>
      rw [hp] at hs; cases hs
      have hm := h.move (g := g) (p := .idle) (by rw [hp]; rfl) rfl (by rw [hp]; rfl) (fun h => nomatch h)
      refine ⟨hm.mutex, hm.look, hm.write, hm.store, hm.known, hm.fresh, fun a ha => ?_⟩
      rcases List.mem_cons.1 ha with rfl | ha
      · by_cases hmd : s.md = none
        · exact .inl hmd
        · exact .inr ⟨h.md hmd, rfl⟩
      · exact h.answers a ha

theorem Inv.reach {s : St M} (h : Reach s) : Inv s := by
  induction h with
  | init => exact .init
  | step l _ hs ih => exact ih.step hs

theorem alone_cons {g n : Nat} {s t u : St M} (h : step s (.go g) = some t) (ht : alone g n t = some u) : alone g (n + 1) s = some u := by
  show (step s (.go g)).bind _ = _
  rw [h]; exact ht

section
variable {s : St M} {g : Nat}

theorem step_idle (h : s.pc g = .idle) : step s (.go g) = some { s with pc := s.at g .load } := by
  unfold step; dsimp only; rw [h]
theorem step_load (h : s.pc g = .load) : step s (.go g) = some { s with pc := s.at g (if s.updated then .read else .lock) } := by
  unfold step; dsimp only; rw [h]
theorem step_lock (h : s.pc g = .lock) (hh : s.holder = none) : step s (.go g) = some { s with pc := s.at g .test, holder := some g } := by
  unfold step; dsimp only; rw [h]; dsimp only; rw [hh]
theorem step_test (h : s.pc g = .test) : step s (.go g) = some { s with pc := s.at g (if s.updated then .unlock else .look) } := by
  unfold step; dsimp only; rw [h]
theorem step_fails (h : s.pc g = .look) (hk : s.known = none) :
    step s (.go g) = some { s with pc := s.at g .unlock, lookups := none :: s.lookups } := by
  unfold step; dsimp only; rw [h]; dsimp only [St.looked]; rw [hk]
theorem step_finds {m : Option M} (h : s.pc g = .look) (hk : s.known = some m) :
    step s (.go g) = some { s with pc := s.at g (.write m), lookups := some m :: s.lookups } := by
  unfold step; dsimp only; rw [h]; dsimp only [St.looked]; rw [hk]
theorem step_write {m : Option M} (h : s.pc g = .write m) : step s (.go g) = some { s with pc := s.at g .store, md := m } := by
  unfold step; dsimp only; rw [h]
theorem step_store (h : s.pc g = .store) : step s (.go g) = some { s with pc := s.at g .unlock, updated := true } := by
  unfold step; dsimp only; rw [h]
theorem step_unlock (h : s.pc g = .unlock) : step s (.go g) = some { s with pc := s.at g .read, holder := none } := by
  unfold step; dsimp only; rw [h]
theorem step_read (h : s.pc g = .read) : step s (.go g) = some { s with pc := s.at g .idle, answers := (g, s.md) :: s.answers } := by
  unfold step; dsimp only; rw [h]
/-- Only the mutex makes a goroutine wait. -/
theorem step_some (h : s.pc g ≠ .lock) : (step s (.go g)).isSome = true := by
  unfold step; dsimp only
  cases hp : s.pc g with
  | lock => exact absurd hp h
  | _ => rfl
end

end Iface
end Flow
