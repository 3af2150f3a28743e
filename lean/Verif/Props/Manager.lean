import Verif.Model.Manager

/-!
C39: a flow definition is loaded once and then stable.
-/

namespace Flow
open Mgr

namespace Spec

/-- Is this the event of a call by goroutine `g`? -/
def isCallOf (g : Nat) : Mgr.Ev → Bool
  | .call h _ => h == g
  | _ => false

/-- The events since the last call of goroutine `g` (events are listed latest first). -/
def sinceCall (g : Nat) (tr : List Mgr.Ev) : List Mgr.Ev := tr.takeWhile (fun ev => !isCallOf g ev)

/-- The events before the last call of goroutine `g`, beginning with this call. -/
def beforeCall (g : Nat) (tr : List Mgr.Ev) : List Mgr.Ev := tr.dropWhile (fun ev => !isCallOf g ev)

/-- Goroutine `g` is in the middle of loading `uri`. -/
def Loading (tr : List Mgr.Ev) (g : Nat) (uri : String) : Prop :=
  ∃ post pre, tr = post ++ .load g uri :: pre ∧ ∀ r, .loaded g uri r ∉ post

end Spec

open Spec

/-- The goroutine holds the lock. -/
def Holds : Pc → Prop
  | .locked _ => True
  | .loading _ => True
  | _ => False

structure MgrOK (s : State) : Prop where
  lock : ∀ g, Holds (s.pc g) ↔ s.lock = some g
  flows : ∀ uri d, s.flows.get? uri = some d ↔ ∃ g, .loaded g uri (some d) ∈ s.trace
  loading : ∀ g uri, s.pc g = .loading uri → s.flows.get? uri = none
  returning : ∀ g uri d, s.pc g = .returning uri (some d) → s.flows.get? uri = some d
  rets : ∀ g uri d, .ret g uri (some d) ∈ s.trace → s.flows.get? uri = some d
  fails : ∀ g uri, s.pc g = .returning uri none →
    .loaded g uri none ∈ sinceCall g s.trace ∧ ∀ h d, .ret h uri (some d) ∉ beforeCall g s.trace
  pending : ∀ g uri, Loading s.trace g uri → s.pc g = .loading uri

/-- What the events say. -/
structure MgrTrace (tr : List Mgr.Ev) : Prop where
  ret : ∀ post g uri r pre, tr = post ++ .ret g uri r :: pre → ∀ h d, .ret h uri (some d) ∈ beforeCall g pre → r = some d
  failed : ∀ post g uri pre, tr = post ++ .ret g uri none :: pre → .loaded g uri none ∈ sinceCall g pre
  load : ∀ post g uri pre, tr = post ++ .load g uri :: pre →
    (∀ h d, .loaded h uri (some d) ∉ pre) ∧ ∀ h u, ¬ Loading pre h u

theorem sinceCall_cons (g : Nat) (ev : Mgr.Ev) (tr : List Mgr.Ev) :
    sinceCall g (ev :: tr) = if isCallOf g ev then [] else ev :: sinceCall g tr := by
  unfold sinceCall
  rw [List.takeWhile_cons]
  cases isCallOf g ev <;> simp

theorem beforeCall_cons (g : Nat) (ev : Mgr.Ev) (tr : List Mgr.Ev) :
    beforeCall g (ev :: tr) = if isCallOf g ev then ev :: tr else beforeCall g tr := by
  unfold beforeCall
  rw [List.dropWhile_cons]
  cases isCallOf g ev <;> simp

theorem beforeCall_mem {g : Nat} {ev : Mgr.Ev} {tr : List Mgr.Ev} (h : ev ∈ beforeCall g tr) : ev ∈ tr :=
  List.dropWhile_subset _ h

/-- A trace that grows by one event. -/
theorem append_cons_cases {ev x : Mgr.Ev} {tr post pre : List Mgr.Ev} (h : ev :: tr = post ++ x :: pre) :
    (post = [] ∧ ev = x ∧ tr = pre) ∨ ∃ post', post = ev :: post' ∧ tr = post' ++ x :: pre := by
  cases post with
  | nil => simp only [List.nil_append, List.cons.injEq] at h; exact Or.inl ⟨rfl, h.1, h.2⟩
  | cons p post =>
    simp only [List.cons_append, List.cons.injEq] at h
    exact Or.inr ⟨post, by rw [h.1], h.2⟩

theorem Loading.cons {ev : Mgr.Ev} {tr : List Mgr.Ev} {g : Nat} {uri : String} (h : Loading (ev :: tr) g uri) :
    ev = .load g uri ∨ (Loading tr g uri ∧ ∀ r, ev ≠ .loaded g uri r) := by
  obtain ⟨post, pre, h1, h2⟩ := h
  rcases append_cons_cases h1 with ⟨_, h3, _⟩ | ⟨post', rfl, h4⟩
  · exact Or.inl h3
  · refine Or.inr ⟨⟨post', pre, h4, fun r hr => h2 r (List.mem_cons_of_mem _ hr)⟩, fun r hr => h2 r (by simp [hr])⟩

theorem goto_pc (s : State) (g h : Nat) (p : Pc) : (s.goto g p).pc h = if h = g then p else s.pc h := rfl

theorem MgrOK.step {s s' : State} {l : Label} (ok : MgrOK s) (tr : MgrTrace s.trace) (h : step s l = some s') :
    MgrOK s' ∧ MgrTrace s'.trace := by
  cases l with
  | call g uri =>
    simp only [Mgr.step, stepCall] at h
    cases hp : s.pc g with
    | idle =>
      rw [hp] at h
      cases h
      refine ⟨⟨fun h => ?_, fun u d => ?_, fun h u hh => ?_, fun h u d hh => ?_, fun h u d hh => ?_, fun h u hh => ?_, fun h u hh => ?_⟩,
        ⟨fun post h u r pre hh => ?_, fun post h u pre hh => ?_, fun post h u pre hh => ?_⟩⟩
      · have := ok.lock h
        simp only [State.emit, goto_pc]
        by_cases hg : h = g
        · subst hg
          rw [hp] at this
          simp only [if_true]
          exact ⟨fun x => x.elim, fun x => (this.2 x).elim⟩
        · rw [if_neg hg]; exact this
      · rw [show ((s.goto g (.waiting uri)).emit (.call g uri)).flows = s.flows from rfl, ok.flows]
        simp [State.emit, State.goto]
      · simp only [State.emit, goto_pc] at hh
        by_cases hg : h = g
        · rw [if_pos hg] at hh; cases hh
        · rw [if_neg hg] at hh; exact ok.loading h u hh
      · simp only [State.emit, goto_pc] at hh
        by_cases hg : h = g
        · rw [if_pos hg] at hh; cases hh
        · rw [if_neg hg] at hh; exact ok.returning h u d hh
      · simp only [State.emit, State.goto, List.mem_cons, reduceCtorEq, false_or] at hh
        exact ok.rets h u d hh
      · simp only [State.emit, goto_pc] at hh
        by_cases hg : h = g
        · rw [if_pos hg] at hh; cases hh
        · rw [if_neg hg] at hh
          have := ok.fails h u hh
          have hc : isCallOf h (.call g uri) = false := by simp [isCallOf]; exact fun x => hg x.symm
          refine ⟨?_, ?_⟩
          · rw [show ((s.goto g (.waiting uri)).emit (.call g uri)).trace = .call g uri :: s.trace from rfl, sinceCall_cons, hc]
            exact List.mem_cons_of_mem _ this.1
          · rw [show ((s.goto g (.waiting uri)).emit (.call g uri)).trace = .call g uri :: s.trace from rfl, beforeCall_cons, hc]
            exact this.2
      · rcases Loading.cons hh with h1 | ⟨h1, _⟩
        · cases h1
        · have := ok.pending h u h1
          simp only [State.emit, goto_pc]
          by_cases hg : h = g
          · subst hg; rw [hp] at this; cases this
          · rw [if_neg hg]; exact this
      · rcases append_cons_cases hh with ⟨_, h1, _⟩ | ⟨post', _, h1⟩
        · cases h1
        · exact tr.ret post' h u r pre h1
      · rcases append_cons_cases hh with ⟨_, h1, _⟩ | ⟨post', _, h1⟩
        · cases h1
        · exact tr.failed post' h u pre h1
      · rcases append_cons_cases hh with ⟨_, h1, _⟩ | ⟨post', _, h1⟩
        · cases h1
        · exact tr.load post' h u pre h1
    | _ => rw [hp] at h; cases h
  | lock g =>
    simp only [Mgr.step, stepLock] at h
    cases hp : s.pc g with
    | waiting uri =>
      rw [hp] at h
      cases hl : s.lock with
      | some x => rw [hl] at h; cases h
      | none =>
        rw [hl] at h
        cases h
        refine ⟨⟨fun h => ?_, ok.flows, fun h u hh => ?_, fun h u d hh => ?_, ok.rets, fun h u hh => ?_, fun h u hh => ?_⟩, tr⟩
        · have := ok.lock h
          rw [hl] at this
          simp only [goto_pc]
          by_cases hg : h = g
          · subst hg; simp [Holds]
          · rw [if_neg hg]
            constructor
            · intro x; exact absurd (this.1 x) (by simp)
            · intro x; cases x; exact absurd rfl hg
        · simp only [goto_pc] at hh
          by_cases hg : h = g
          · rw [if_pos hg] at hh; cases hh
          · rw [if_neg hg] at hh; exact ok.loading h u hh
        · simp only [goto_pc] at hh
          by_cases hg : h = g
          · rw [if_pos hg] at hh; cases hh
          · rw [if_neg hg] at hh; exact ok.returning h u d hh
        · simp only [goto_pc] at hh
          by_cases hg : h = g
          · rw [if_pos hg] at hh; cases hh
          · rw [if_neg hg] at hh; exact ok.fails h u hh
        · have := ok.pending h u hh
          simp only [goto_pc]
          by_cases hg : h = g
          · subst hg; rw [hp] at this; cases this
          · rw [if_neg hg]; exact this
    | _ => rw [hp] at h; cases h
  | lookup g =>
    simp only [Mgr.step, stepLookup] at h
    cases hp : s.pc g with
    | locked uri =>
      rw [hp] at h
      dsimp only at h
      have hlk : s.lock = some g := (ok.lock g).1 (by rw [hp]; trivial)
      cases hf : s.flows.get? uri with
      | some d =>
        rw [hf] at h
        cases h
        refine ⟨⟨fun h => ?_, ok.flows, fun h u hh => ?_, fun h u d' hh => ?_, ok.rets, fun h u hh => ?_, fun h u hh => ?_⟩, tr⟩
        · have := ok.lock h
          rw [hlk] at this
          simp only [goto_pc]
          by_cases hg : h = g
          · subst hg; simp [Holds]
          · rw [if_neg hg]
            constructor
            · intro x; have := this.1 x; simp only [Option.some.injEq] at this; exact absurd this.symm hg
            · intro x; cases x
        · simp only [goto_pc] at hh
          by_cases hg : h = g
          · rw [if_pos hg] at hh; cases hh
          · rw [if_neg hg] at hh; exact ok.loading h u hh
        · simp only [goto_pc] at hh
          by_cases hg : h = g
          · rw [if_pos hg] at hh; cases hh; exact hf
          · rw [if_neg hg] at hh; exact ok.returning h u d' hh
        · simp only [goto_pc] at hh
          by_cases hg : h = g
          · rw [if_pos hg] at hh; cases hh
          · rw [if_neg hg] at hh; exact ok.fails h u hh
        · have := ok.pending h u hh
          simp only [goto_pc]
          by_cases hg : h = g
          · subst hg; rw [hp] at this; cases this
          · rw [if_neg hg]; exact this
      | none =>
        rw [hf] at h
        cases h
        have hnl : ∀ h u, ¬ Loading s.trace h u := by
          intro h u hh
          have h1 := ok.pending h u hh
          have h2 := (ok.lock h).1 (by rw [h1]; trivial)
          rw [hlk] at h2
          cases h2
          rw [hp] at h1; cases h1
        refine ⟨⟨fun h => ?_, fun u d => ?_, fun h u hh => ?_, fun h u d hh => ?_, fun h u d hh => ?_, fun h u hh => ?_, fun h u hh => ?_⟩,
          ⟨fun post h u r pre hh => ?_, fun post h u pre hh => ?_, fun post h u pre hh => ?_⟩⟩
        · have := ok.lock h
          simp only [State.emit, goto_pc]
          by_cases hg : h = g
          · subst hg
            rw [if_pos rfl]
            exact ⟨fun _ => hlk, fun _ => trivial⟩
          · rw [if_neg hg]; exact this
        · rw [show ((s.goto g (.loading uri)).emit (.load g uri)).flows = s.flows from rfl, ok.flows]
          simp [State.emit, State.goto]
        · simp only [State.emit, goto_pc] at hh
          by_cases hg : h = g
          · rw [if_pos hg] at hh; cases hh; exact hf
          · rw [if_neg hg] at hh; exact ok.loading h u hh
        · simp only [State.emit, goto_pc] at hh
          by_cases hg : h = g
          · rw [if_pos hg] at hh; cases hh
          · rw [if_neg hg] at hh; exact ok.returning h u d hh
        · simp only [State.emit, State.goto, List.mem_cons, reduceCtorEq, false_or] at hh
          exact ok.rets h u d hh
        · simp only [State.emit, goto_pc] at hh
          by_cases hg : h = g
          · rw [if_pos hg] at hh; cases hh
          · rw [if_neg hg] at hh
            have := ok.fails h u hh
            refine ⟨?_, ?_⟩
            · rw [show ((s.goto g (.loading uri)).emit (.load g uri)).trace = .load g uri :: s.trace from rfl, sinceCall_cons]
              exact List.mem_cons_of_mem _ this.1
            · rw [show ((s.goto g (.loading uri)).emit (.load g uri)).trace = .load g uri :: s.trace from rfl, beforeCall_cons]
              exact this.2
        · rcases Loading.cons hh with h1 | ⟨h1, _⟩
          · cases h1; simp [State.emit, goto_pc]
          · exact absurd h1 (hnl h u)
        · rcases append_cons_cases hh with ⟨_, h1, _⟩ | ⟨post', _, h1⟩
          · cases h1
          · exact tr.ret post' h u r pre h1
        · rcases append_cons_cases hh with ⟨_, h1, _⟩ | ⟨post', _, h1⟩
          · cases h1
          · exact tr.failed post' h u pre h1
        · rcases append_cons_cases hh with ⟨_, h1, h2⟩ | ⟨post', _, h1⟩
          · cases h1
            subst h2
            refine ⟨fun h d hm => ?_, hnl⟩
            have := (ok.flows uri d).2 ⟨h, hm⟩
            rw [hf] at this; cases this
          · exact tr.load post' h u pre h1
    | _ => rw [hp] at h; cases h
  | provide g r =>
    simp only [Mgr.step, stepProvide] at h
    cases hp : s.pc g with
    | loading uri =>
      rw [hp] at h
      cases h
      have hlk : s.lock = some g := (ok.lock g).1 (by rw [hp]; trivial)
      have hf : s.flows.get? uri = none := ok.loading g uri hp
      have hfl : ∀ u, (store s.flows uri r).get? u =
          if u = uri then r else s.flows.get? u := by
        intro u
        cases r with
        | none =>
          show s.flows.get? u = _
          by_cases hu : u = uri
          · rw [if_pos hu, hu, hf]
          · rw [if_neg hu]
        | some d =>
          show (s.flows.set uri d).get? u = _
          rw [AMap.get?_set]
          by_cases hu : u = uri
          · rw [if_pos hu, if_pos hu.symm]
          · rw [if_neg hu, if_neg (fun x => hu x.symm)]
      have hnor : ∀ h d, .ret h uri (some d) ∉ s.trace := by
        intro h d hm
        have := ok.rets h uri d hm
        rw [hf] at this; cases this
      refine ⟨⟨fun h => ?_, fun u d => ?_, fun h u hh => ?_, fun h u d hh => ?_, fun h u d hh => ?_, fun h u hh => ?_, fun h u hh => ?_⟩,
        ⟨fun post h u r' pre hh => ?_, fun post h u pre hh => ?_, fun post h u pre hh => ?_⟩⟩
      · have := ok.lock h
        rw [hlk] at this
        simp only [State.emit, goto_pc]
        by_cases hg : h = g
        · subst hg; simp [Holds]
        · rw [if_neg hg]
          constructor
          · intro x; have := this.1 x; simp only [Option.some.injEq] at this; exact absurd this.symm hg
          · intro x; cases x
      · simp only [State.emit, State.goto]
        rw [hfl]
        by_cases hu : u = uri
        · subst hu
          rw [if_pos rfl]
          constructor
          · intro hr; exact ⟨g, by simp [hr]⟩
          · rintro ⟨h, hm⟩
            rcases List.mem_cons.1 hm with hm | hm
            · simp only [Mgr.Ev.loaded.injEq] at hm; exact hm.2.2.symm
            · have := (ok.flows u d).2 ⟨h, hm⟩
              rw [hf] at this; cases this
        · rw [if_neg hu, ok.flows]
          constructor
          · rintro ⟨h, hm⟩; exact ⟨h, List.mem_cons_of_mem _ hm⟩
          · rintro ⟨h, hm⟩
            rcases List.mem_cons.1 hm with hm | hm
            · simp only [Mgr.Ev.loaded.injEq] at hm; exact absurd hm.2.1 hu
            · exact ⟨h, hm⟩
      · simp only [State.emit, goto_pc] at hh
        by_cases hg : h = g
        · rw [if_pos hg] at hh; cases hh
        · rw [if_neg hg] at hh
          have := (ok.lock h).1 (by rw [hh]; trivial)
          rw [hlk] at this
          simp only [Option.some.injEq] at this
          exact absurd this.symm hg
      · simp only [State.emit, goto_pc] at hh
        show (store s.flows uri r).get? u = some d
        rw [hfl]
        by_cases hg : h = g
        · rw [if_pos hg] at hh; cases hh; rw [if_pos rfl]
        · rw [if_neg hg] at hh
          have h1 := ok.returning h u d hh
          have hu : u ≠ uri := fun x => by rw [x, hf] at h1; cases h1
          rw [if_neg hu]; exact h1
      · simp only [State.emit, State.goto, List.mem_cons, reduceCtorEq, false_or] at hh ⊢
        rw [hfl]
        have h1 := ok.rets h u d hh
        have hu : u ≠ uri := fun x => by rw [x, hf] at h1; cases h1
        rw [if_neg hu]; exact h1
      · simp only [State.emit, goto_pc] at hh
        simp only [State.emit, State.goto]
        rw [sinceCall_cons, beforeCall_cons]
        by_cases hg : h = g
        · rw [if_pos hg] at hh
          cases hh
          subst hg
          exact ⟨by simp [isCallOf], fun h' d hm => hnor h' d (beforeCall_mem hm)⟩
        · rw [if_neg hg] at hh
          have := ok.fails h u hh
          exact ⟨List.mem_cons_of_mem _ this.1, this.2⟩
      · rcases Loading.cons hh with h1 | ⟨h1, h2⟩
        · cases h1
        · have h3 := ok.pending h u h1
          have h4 := (ok.lock h).1 (by rw [h3]; trivial)
          rw [hlk] at h4
          cases h4
          rw [hp] at h3
          cases h3
          exact absurd rfl (h2 r)
      · rcases append_cons_cases hh with ⟨_, h1, _⟩ | ⟨post', _, h1⟩
        · cases h1
        · exact tr.ret post' h u r' pre h1
      · rcases append_cons_cases hh with ⟨_, h1, _⟩ | ⟨post', _, h1⟩
        · cases h1
        · exact tr.failed post' h u pre h1
      · rcases append_cons_cases hh with ⟨_, h1, _⟩ | ⟨post', _, h1⟩
        · cases h1
        · exact tr.load post' h u pre h1
    | _ => rw [hp] at h; cases h
  | ret g =>
    simp only [Mgr.step, stepRet] at h
    cases hp : s.pc g with
    | returning uri r =>
      rw [hp] at h
      cases h
      refine ⟨⟨fun h => ?_, fun u d => ?_, fun h u hh => ?_, fun h u d hh => ?_, fun h u d hh => ?_, fun h u hh => ?_, fun h u hh => ?_⟩,
        ⟨fun post h u r' pre hh => ?_, fun post h u pre hh => ?_, fun post h u pre hh => ?_⟩⟩
      · have := ok.lock h
        simp only [State.emit, goto_pc]
        by_cases hg : h = g
        · subst hg
          rw [hp] at this
          rw [if_pos rfl]
          exact ⟨fun x => x.elim, fun x => (this.2 x).elim⟩
        · rw [if_neg hg]; exact this
      · rw [show ((s.goto g .idle).emit (.ret g uri r)).flows = s.flows from rfl, ok.flows]
        simp [State.emit, State.goto]
      · simp only [State.emit, goto_pc] at hh
        by_cases hg : h = g
        · rw [if_pos hg] at hh; cases hh
        · rw [if_neg hg] at hh; exact ok.loading h u hh
      · simp only [State.emit, goto_pc] at hh
        by_cases hg : h = g
        · rw [if_pos hg] at hh; cases hh
        · rw [if_neg hg] at hh; exact ok.returning h u d hh
      · rcases List.mem_cons.1 hh with hh | hh
        · simp only [Mgr.Ev.ret.injEq] at hh
          obtain ⟨h1, h2, h3⟩ := hh
          rw [← h3, ← h2] at hp
          exact ok.returning g u d hp
        · exact ok.rets h u d hh
      · simp only [State.emit, goto_pc] at hh
        simp only [State.emit, State.goto]
        rw [sinceCall_cons, beforeCall_cons]
        by_cases hg : h = g
        · rw [if_pos hg] at hh; cases hh
        · rw [if_neg hg] at hh
          have := ok.fails h u hh
          exact ⟨List.mem_cons_of_mem _ this.1, this.2⟩
      · rcases Loading.cons hh with h1 | ⟨h1, _⟩
        · cases h1
        · have := ok.pending h u h1
          simp only [State.emit, goto_pc]
          by_cases hg : h = g
          · subst hg; rw [hp] at this; cases this
          · rw [if_neg hg]; exact this
      · rcases append_cons_cases hh with ⟨_, h1, h2⟩ | ⟨post', _, h1⟩
        · cases h1
          subst h2
          intro h' d hm
          cases r with
          | none => exact absurd hm ((ok.fails g uri hp).2 h' d)
          | some d' =>
            have h3 := ok.rets h' uri d (beforeCall_mem hm)
            rw [ok.returning g uri d' hp] at h3
            exact h3
        · exact tr.ret post' h u r' pre h1
      · rcases append_cons_cases hh with ⟨_, h1, h2⟩ | ⟨post', _, h1⟩
        · cases h1
          subst h2
          exact (ok.fails g uri hp).1
        · exact tr.failed post' h u pre h1
      · rcases append_cons_cases hh with ⟨_, h1, _⟩ | ⟨post', _, h1⟩
        · cases h1
        · exact tr.load post' h u pre h1
    | _ => rw [hp] at h; cases h

theorem MgrOK.reach {s : State} (h : Reach s) : MgrOK s ∧ MgrTrace s.trace := by
  induction h with
  | init =>
    refine ⟨⟨fun g => ⟨fun h => h.elim, fun h => by cases h⟩, fun u d => ?_, ?_, ?_, ?_, ?_, ?_⟩, ?_, ?_, ?_⟩
    · simp
    · intro g u h; cases h
    · intro g u d h; cases h
    · intro g u d h; cases h
    · intro g u h; cases h
    · rintro g u ⟨post, pre, h, _⟩; exact absurd h (by simp)
    · intro post g u r pre h; exact absurd h (by simp)
    · intro post g u pre h; exact absurd h (by simp)
    · intro post g u pre h; exact absurd h (by simp)
  | step _ hs ih => exact ih.1.step ih.2 hs

/-- **C39** (stable) Whatever the provider does and however the goroutines interleave: all successful resolutions of a
URI give the same definition, and a resolution that is called after a successful one has returned succeeds with this
definition. -/
theorem C39_stable {s : State} (h : Reach s) (uri : String) :
    (∀ g g' d d', .ret g uri (some d) ∈ s.trace → .ret g' uri (some d') ∈ s.trace → d = d') ∧
    (∀ post g r pre, s.trace = post ++ .ret g uri r :: pre → ∀ g' d, .ret g' uri (some d) ∈ beforeCall g pre → r = some d) := by
  obtain ⟨ok, tr⟩ := MgrOK.reach h
  refine ⟨fun g g' d d' h1 h2 => ?_, fun post g r pre hh => tr.ret post g uri r pre hh⟩
  have h3 := ok.rets g uri d h1
  rw [ok.rets g' uri d' h2] at h3
  cases h3; rfl

/-- **C39** (once) At most one load is in progress at any time, for all URIs and goroutines together, and no load of a
URI begins after one was successful. -/
theorem C39_once {s : State} (h : Reach s) :
    (∀ g g' u u', Loading s.trace g u → Loading s.trace g' u' → g = g' ∧ u = u') ∧
    (∀ post g uri pre, s.trace = post ++ .load g uri :: pre → (∀ g' d, .loaded g' uri (some d) ∉ pre) ∧ ∀ g' u, ¬ Loading pre g' u) := by
  obtain ⟨ok, tr⟩ := MgrOK.reach h
  refine ⟨fun g g' u u' h1 h2 => ?_, fun post g uri pre hh => tr.load post g uri pre hh⟩
  have h3 := ok.pending g u h1
  have h4 := ok.pending g' u' h2
  have h5 := (ok.lock g).1 (by rw [h3]; trivial)
  have h6 := (ok.lock g').1 (by rw [h4]; trivial)
  rw [h5] at h6
  cases h6
  rw [h3] at h4
  cases h4
  exact ⟨rfl, rfl⟩

/-- **C39** (failures) An unsuccessful resolution is never remembered: it is the outcome of a load made by this very
call; and whenever the lock is free, a new call of a URI that was not yet resolved reaches the provider and returns
what the provider gives. -/
theorem C39_failure {s : State} (h : Reach s) (uri : String) :
    (∀ post g pre, s.trace = post ++ .ret g uri none :: pre → .loaded g uri none ∈ sinceCall g pre) ∧
    (∀ g, s.lock = none → s.pc g = .idle → (∀ g' d, .loaded g' uri (some d) ∉ s.trace) → ∀ r,
      ∃ s', Reach s' ∧ s'.trace = .ret g uri r :: .loaded g uri r :: .load g uri :: .call g uri :: s.trace) := by
  obtain ⟨ok, tr⟩ := MgrOK.reach h
  refine ⟨fun post g pre hh => tr.failed post g uri pre hh, fun g hl hp hno r => ?_⟩
  have hf : s.flows.get? uri = none := by
    cases hx : s.flows.get? uri with
    | none => rfl
    | some d =>
      obtain ⟨g', hg'⟩ := (ok.flows uri d).1 hx
      exact absurd hg' (hno g' d)
  have h1 : Reach ((s.goto g (.waiting uri)).emit (.call g uri)) :=
    .step (l := .call g uri) h (by simp only [Mgr.step, stepCall, hp])
  have h2 := Reach.step (l := .lock g) (s' := _) h1 (by
    simp only [Mgr.step, stepLock, State.emit, State.goto, if_true, hl]; rfl)
  have h3 := Reach.step (l := .lookup g) (s' := _) h2 (by
    simp only [Mgr.step, stepLookup, if_true, hf]; rfl)
  have h4 := Reach.step (l := .provide g r) (s' := _) h3 (by
    simp only [Mgr.step, stepProvide, State.goto, State.emit, if_true]; rfl)
  have h5 := Reach.step (l := .ret g) (s' := _) h4 (by
    simp only [Mgr.step, stepRet, State.goto, State.emit, if_true]; rfl)
  exact ⟨_, h5, rfl⟩

/-- Two goroutines resolve the same URI at the same time; the provider fails for the first and succeeds for the
second; a third call gets the definition without a load. -/
def mgrLabels : List Label :=
  [.call 1 "u", .call 2 "u", .lock 1, .lookup 1, .provide 1 none, .lock 2, .lookup 2, .ret 1, .provide 2 (some 7), .ret 2,
   .call 1 "u", .lock 1, .lookup 1, .ret 1]

def mgrRun (s : State) : List Label → Option State
  | [] => some s
  | l :: ls => (step s l).bind (fun s' => mgrRun s' ls)

theorem mgrRun_reach {ls : List Label} : ∀ {s s' : State}, Reach s → mgrRun s ls = some s' → Reach s' := by
  induction ls with
  | nil => intro s s' h hr; cases hr; exact h
  | cons l ls ih =>
    intro s s' h hr
    simp only [mgrRun] at hr
    cases hs : step s l with
    | none => rw [hs] at hr; cases hr
    | some s1 => rw [hs] at hr; exact ih (.step h hs) hr

example : (mgrRun {} mgrLabels).map (·.trace) = some [.ret 1 "u" (some 7), .call 1 "u", .ret 2 "u" (some 7),
    .loaded 2 "u" (some 7), .ret 1 "u" none, .load 2 "u", .loaded 1 "u" none, .load 1 "u", .call 2 "u", .call 1 "u"] := rfl

/-- The hypotheses of the clauses are met in this run. -/
example : ∃ s, Reach s ∧ .ret 2 "u" (some 7) ∈ s.trace ∧ .ret 1 "u" none ∈ s.trace ∧ s.lock = none := by
  obtain ⟨s, hs⟩ : ∃ s, mgrRun {} mgrLabels = some s := ⟨_, rfl⟩
  refine ⟨s, mgrRun_reach .init hs, ?_, ?_, ?_⟩ <;> (cases hs; simp [State.emit, State.goto])

end Flow
