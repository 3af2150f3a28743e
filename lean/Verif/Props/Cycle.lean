import Verif.Props.Loops
import Verif.Spec.Cycle

/-!
Property theorems about flows whose links form a cycle: C89.
-/

namespace Flow
open Spec

/-- The last link of a path. -/
theorem path_last {g : Graph} {a c : TaskId} (h : Path g a c) : a = c ∨ ∃ l ∈ g.links, l.dst = c ∧ Path g a l.src := by
  induction h with
  | refl a => exact Or.inl rfl
  | step hl _ ih =>
    rename_i l c hp
    rcases ih with h | ⟨k, hk, h1, h2⟩
    · exact Or.inr ⟨l, hl, h, .refl _⟩
    · exact Or.inr ⟨k, hk, h1, .step hl h2⟩

/-- A task on or behind a cycle has an incoming link from such a task. -/
theorem behind_pred {g : Graph} {t : TaskId} (h : BehindCycle g t) : ∃ l ∈ g.links, l.dst = t ∧ BehindCycle g l.src := by
  obtain ⟨c, hc, hp⟩ := h
  rcases path_last hp with rfl | ⟨l, hl, h1, h2⟩
  · obtain ⟨l, hl, h1, h2⟩ := hc
    rcases path_last h2 with h3 | ⟨k, hk, h3, h4⟩
    · exact ⟨l, hl, h3, l.src, ⟨l, hl, rfl, by rw [h1]; exact h2⟩, .refl _⟩
    · exact ⟨k, hk, h3, c, ⟨l, hl, h1, h2⟩, by rw [← h1]; exact .step hl h4⟩
  · exact ⟨l, hl, h1, c, hc, h2⟩

theorem decided_mem {tr : List Ev} {k : LinkId} (h : lastLink tr k ≠ .unset) : ∃ s, .linkStatus k s ∈ tr := by
  induction tr with
  | nil => exact absurd rfl h
  | cons ev tr ih =>
    have hmem : lastLink tr k ≠ .unset → ∃ s, .linkStatus k s ∈ ev :: tr := fun h =>
      (ih h).imp fun _ hs => List.mem_cons_of_mem _ hs
    cases ev with
    | linkStatus l s =>
      by_cases hl : l = k
      · subst hl; exact ⟨s, List.mem_cons_self ..⟩
      · exact hmem (by simpa [lastLink, hl] using h)
    | linkRemoved l =>
      by_cases hl : l = k
      · simp [lastLink, hl] at h
      · exact hmem (by simpa [lastLink, hl] using h)
    | _ => exact hmem h

/-- Links with the same identifier are the same link of the same graph. -/
theorem links_distinct {d : Def} (h : LinksDistinct d) {a b : Bool} {l k : LinkDef} (hl : l ∈ (d.graph a).links)
    (hk : k ∈ (d.graph b).links) (he : l.id = k.id) : a = b ∧ l = k := by
  obtain ⟨h1, h2, h3⟩ := List.nodup_append.1 h
  have hinj : ∀ {ls : List LinkDef}, (ls.map (·.id)).Nodup → l ∈ ls → k ∈ ls → l = k := by
    intro ls
    induction ls with
    | nil => exact fun _ h => nomatch h
    | cons x xs ih =>
      intro hn hl hk
      rw [List.map_cons, List.nodup_cons] at hn
      rcases List.mem_cons.1 hl with hlx | hl'
      · rcases List.mem_cons.1 hk with hkx | hk'
        · rw [hlx, hkx]
        · exact absurd (hlx ▸ he ▸ List.mem_map_of_mem hk') hn.1
      · rcases List.mem_cons.1 hk with hkx | hk'
        · exact absurd (hkx ▸ he ▸ List.mem_map_of_mem hl') hn.1
        · exact ih hn.2 hl' hk'
  cases a <;> cases b
  · exact ⟨rfl, hinj h1 hl hk⟩
  · exact absurd he (h3 _ (List.mem_map_of_mem hl) _ (List.mem_map_of_mem hk))
  · exact absurd he.symm (h3 _ (List.mem_map_of_mem hk) _ (List.mem_map_of_mem hl))
  · exact ⟨rfl, hinj h2 hl hk⟩

/-- In a trace that is in order nothing happens to tasks on or behind a cycle, except that they are entered. -/
theorem cycle_quiet {d : Def} (hd : LinksDistinct d) {tr : List Ev} (h : TraceOK d tr) :
    ∀ t : TaskRef, BehindCycle (d.graph t.eh) t.id → ∀ ev ∈ tr, activeTask ev ≠ some t := by
  induction tr with
  | nil => exact fun _ _ _ h => nomatch h
  | cons ev pre ih =>
    intro t ht ev' hev
    have ih := ih h.2
    rcases List.mem_cons.1 hev with rfl | hev
    · intro hact
      have hready : ∀ o, .taskStatus o t .ready ∉ pre := fun o hm => ih t ht _ hm rfl
      have hdec : ¬ AllDecided pre (d.fromLinks t) := by
        intro hall
        obtain ⟨l, hl, h1, h2⟩ := behind_pred ht
        have hm : l ∈ d.fromLinks t := by simp [Def.fromLinks, Graph.fromLinks, hl, h1]
        obtain ⟨s, hs⟩ := decided_mem (hall l hm)
        obtain ⟨post, pre', hsp⟩ := List.append_of_mem hs
        obtain ⟨t', o', l', h3, h4, h5⟩ := h.2.at hsp
        have h3' : l' ∈ (d.graph t'.eh).links ∧ l'.src = t'.id := by
          simpa [Def.toLinks, Graph.toLinks] using h3
        obtain ⟨h6, rfl⟩ := links_distinct hd hl h3'.1 h4.symm
        have hno : ∀ s, s ≠ TaskStatus.entered → .taskStatus o' t' s ∉ pre' := by
          intro s hs hm
          refine ih t' (by rw [← h6, ← h3'.2]; exact h2) (.taskStatus o' t' s) ?_ ?_
          · rw [hsp]; exact List.mem_append_right _ (List.mem_cons_of_mem _ hm)
          · cases s <;> first | rfl | exact absurd rfl hs
        cases s with
        | unset => exact h5
        | «true» =>
          dsimp only at h5
          split at h5
          · exact hno _ (by decide) h5
          · exact hno _ (by decide) h5
        | «false» => exact h5.elim (hno _ (by decide)) (hno _ (by decide))
        | skipped => exact hno _ (by decide) h5
      have h1 := h.1
      cases ev' with
      | taskStatus o u s =>
        cases s with
        | notStarted => exact h1
        | entered => exact nomatch hact
        | ready => cases hact; exact hdec h1.1.1
        | skipped => cases hact; exact hdec h1.1.2.1
        | _ => cases hact; exact hready _ h1
      | evalAct o u => simp only [activeTask, Option.some.injEq] at hact; subst hact; exact hready _ h1
      | postAct o u => simp only [activeTask, Option.some.injEq] at hact; subst hact; exact hready _ h1
      | _ => exact absurd hact (fun h => nomatch h)
    · exact ih t ht ev' hev

/-- C89: a task on a cycle of links, or behind one, is neither executed nor skipped, in no execution. -/
theorem C89_never_executed {env : Env} {e : Eng} (hr : Reachable env e) {i : Nat} {I : Inst} (hI : e.insts[i]? = some I)
    (hd : LinksDistinct I.defn) {t : TaskRef} (ht : BehindCycle (I.defn.graph t.eh) t.id) :
    ∀ ev ∈ I.trace, activeTask ev ≠ some t :=
  cycle_quiet hd ((Eng.engOK_reachable hr).ok i I hI).trace t ht

/-- A leads to B, B and C wait for each other, D comes after C; E is on its own. -/
def circular : Def :=
  { name := "f", main := ⟨[tk "A", tk "B", tk "C", tk "D", tk "E"], deps 0 [("A", "B"), ("B", "C"), ("C", "B"), ("C", "D")]⟩ }

/-- The state after 30 steps. -/
def circularEnd : Eng := Eng.run plainEnv (Eng.init plainEnv "1" "u" circular []) 30

-- non-trivial instance: the hypotheses hold for D, which is behind the cycle of B and C; A and E are evaluated; B has been
-- entered and waits for C for ever: the flow stays active
example : Reachable plainEnv circularEnd := ⟨"1", "u", circular, [], 30, rfl⟩
example : LinksDistinct circular := by unfold LinksDistinct; decide
example : BehindCycle (circular.graph false) "D" :=
  ⟨"C", ⟨⟨2, "C", "B", .dependency, ""⟩, by decide, rfl, .step (l := ⟨1, "B", "C", .dependency, ""⟩) (by decide) (.refl _)⟩,
    .step (l := ⟨3, "C", "D", .dependency, ""⟩) (by decide) (.refl _)⟩
example : (calls circularEnd 0).map (fun ev => match ev with | .evalAct _ t => t.id | _ => "") = ["E", "A"] := by decide
example : (circularEnd.insts[0]?.map fun I => I.trace.filterMap enteredTask) =
    some [⟨false, "B"⟩, ⟨false, "E"⟩, ⟨false, "A"⟩] := by decide
example (n : Nat) : flowStatus (Eng.run plainEnv circularEnd n) 0 = some .active := by
  have h := (stalled_forever (env := plainEnv) (e := circularEnd) (by decide) (by decide) n).1
  unfold flowStatus
  rw [h]
  decide

end Flow
