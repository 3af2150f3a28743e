import Verif.Proofs.Behavior

/-!
Property theorems about link decisions (C01, C02, C03, C04, C05, C45), at the level of the task behavior.
The engine-level theorems are in the other files of this directory.
-/

namespace Flow

open Spec

/-! ### C01, C02: the decision taken when a task is entered -/

/-- C01 (decision): a task is put up for evaluation exactly if every incoming link is decided and, unless it
has no incoming links, at least one was followed. -/
theorem C01_ready_iff (ls : List LinkStatus) :
    enterDecision ls = .eval ↔ (∀ s ∈ ls, decided s) ∧ (ls = [] ∨ LinkStatus.true ∈ ls) :=
  enterDecision_eval ls

/-- C02 (decision): a task is skipped exactly if it has incoming links, all are decided and none was followed. -/
theorem C02_skip_iff (ls : List LinkStatus) :
    enterDecision ls = .skip ↔ ls ≠ [] ∧ (∀ s ∈ ls, decided s) ∧ LinkStatus.true ∉ ls :=
  enterDecision_skip ls

/-- C02 (links): every outgoing link of a skipped task is marked skipped, none is lost. -/
theorem C02_skip_links (ls : List LinkDef) :
    (skipRows ls).map (·.1) = ls ∧ ∀ r ∈ skipRows ls, r.2.1 = .skipped := by
  constructor
  · simp [skipRows, Function.comp_def]
  · simp [skipRows]

-- non-trivial instances
example : enterDecision [.true, .false, .skipped] = .eval := by decide
example : enterDecision [.false, .skipped] = .skip := by decide
example : enterDecision [.true, .unset] = .notReady := by decide

/-! ### C03: links followed after success -/

/-- C03: if no link expression fails, each outgoing link gets status followed exactly if the specification says so
and otherwise not followed; the links are kept in order. -/
theorem C03_links_after_success (prio : Bool) (ev : LinkDef → ExprOut) (ls : List LinkDef)
    (h : ¬ exprFails ls ev) :
    ∃ rows, doneRows prio ev ls = .ok rows ∧ rows.map (·.1) = ls ∧
      ∀ (k : Nat) (r : LinkDef × LinkStatus × Nat), rows[k]? = some r →
        (r.2.1 = .true ↔ followedAfterSuccess ls ev k) ∧ (r.2.1 = .false ↔ ¬ followedAfterSuccess ls ev k) := by
  obtain ⟨rows, h1, h2, h3⟩ := doneRows_ok prio ev ls h
  refine ⟨rows, h1, ?_, ?_⟩
  · apply List.ext_getElem?
    intro k
    by_cases hk : k < ls.length
    · have hl : ls[k]? = some ls[k] := List.getElem?_eq_getElem hk
      rcases h3 k _ hl with ⟨_, h4⟩ | ⟨_, h4⟩ <;> simp [h4, hl]
    · rw [List.getElem?_eq_none (by simp [h2]; omega), List.getElem?_eq_none (by omega)]
  · intro k r hr
    have hk : k < ls.length := by
      rw [← h2]; exact (List.getElem?_eq_some_iff.1 hr).1
    have hl : ls[k]? = some ls[k] := List.getElem?_eq_getElem hk
    rcases h3 k _ hl with ⟨h5, h4⟩ | ⟨h5, h4⟩ <;> rw [hr] at h4 <;> cases h4 <;> simp [h5]

/-- C03 (failure): the transition fails exactly if some link expression reports an error; the reported error is
that of the first such link in definition order. -/
theorem C03_fails_iff (prio : Bool) (ev : LinkDef → ExprOut) (ls : List LinkDef) :
    (∃ m rows, doneRows prio ev ls = .error (m, rows)) ↔ exprFails ls ev := by
  constructor
  · rintro ⟨m, rows, h⟩
    apply Classical.byContradiction
    intro hn
    obtain ⟨rows', h1, _⟩ := doneRows_ok prio ev ls hn
    rw [h1] at h; cases h
  · intro h
    obtain ⟨m, a, h1⟩ := doneLoop_error prio ev ls {} h
    exact ⟨m, a.rows, by simp [doneRows, h1]⟩

theorem C03_first_error (prio : Bool) (ev : LinkDef → ExprOut) (ls : List LinkDef) (m : String)
    (rows : List (LinkDef × LinkStatus × Nat)) (h : doneRows prio ev ls = .error (m, rows)) :
    ∃ pre l post, ls = pre ++ l :: post ∧ l.type = .expression ∧ ev l = .err m ∧ ¬ exprFails pre ev := by
  unfold doneRows at h
  split at h
  · rename_i m' a he
    cases h
    obtain ⟨pre, l, post, h1, h2, h3, h4, _⟩ := doneLoop_error_rows prio ev ls {} _ _ he
    exact ⟨pre, l, post, h1, h2, h3, h4⟩
  · cases h

/-- Four links of different types; the expression is false. -/
def exampleLinks : List LinkDef :=
  [⟨0, "a", "b", .dependency, ""⟩, ⟨1, "a", "c", .expression, ""⟩, ⟨2, "a", "d", .otherwise, ""⟩,
   ⟨3, "a", "e", .error, ""⟩]

example : ¬ exprFails exampleLinks (fun _ => .ok false) := by
  rintro ⟨l, _, _, m, hm⟩; cases hm
example : followedAfterSuccess exampleLinks (fun _ => .ok false) 2 := by
  refine ⟨_, rfl, Or.inr (Or.inr (Or.inr ⟨rfl, ?_, ⟨⟨1, "a", "c", .expression, ""⟩, by simp [exampleLinks], rfl⟩, ?_⟩))⟩
  · intro j l' hj hl'
    match j, hj with
    | 3, _ => cases hl'; simp
    | n + 4, _ => simp [exampleLinks] at hl'
  · rintro j ⟨l, _, _, h⟩; cases h
example : (match doneRows false (fun _ => .ok false) exampleLinks with
    | .ok rows => rows.map (·.2.1) | .error _ => []) = [.true, .false, .true, .false] := by decide
example : exprFails exampleLinks (fun _ => .err "boom") :=
  ⟨⟨1, "a", "c", .expression, ""⟩, by simp [exampleLinks], rfl, "boom", rfl⟩

/-! ### C04: links followed after a failure -/

/-- C04 (decision): a failure is handled locally exactly if there is an error link; then exactly the error links
are followed and every other link is marked not followed. -/
theorem C04_error_links (ls : List LinkDef) :
    ((∃ l ∈ ls, l.type = .error) → ∃ rows, errorRows ls = some rows ∧ rows.map (·.1) = ls ∧
      ∀ r ∈ rows, (r.1.type = .error → r.2.1 = .true) ∧ (r.1.type ≠ .error → r.2.1 = .false)) ∧
    ((¬ ∃ l ∈ ls, l.type = .error) → errorRows ls = none) := by
  constructor
  · rintro ⟨l, hl, ht⟩
    refine ⟨ls.map (fun l => if l.type = .error then (l, .true, 0) else (l, .false, 4)), ?_, ?_, ?_⟩
    · unfold errorRows
      rw [if_pos (by simp only [List.any_eq_true, decide_eq_true_eq]; exact ⟨l, hl, ht⟩)]
    · rw [List.map_map]
      conv => rhs; rw [← List.map_id ls]
      apply List.map_congr_left
      intro a _
      by_cases ha : a.type = .error <;> simp [ha]
    · intro r hr
      obtain ⟨a, _, rfl⟩ := List.mem_map.1 hr
      by_cases ha : a.type = .error <;> simp [ha]
  · intro h
    unfold errorRows
    rw [if_neg]
    simp only [List.any_eq_true, decide_eq_true_eq]
    exact h

example : ∃ l ∈ exampleLinks, l.type = .error := ⟨⟨3, "a", "e", .error, ""⟩, by simp [exampleLinks], rfl⟩
example : errorRows exampleLinks =
    some [(⟨0, "a", "b", .dependency, ""⟩, .false, 4), (⟨1, "a", "c", .expression, ""⟩, .false, 4),
      (⟨2, "a", "d", .otherwise, ""⟩, .false, 4), (⟨3, "a", "e", .error, ""⟩, .true, 0)] := by decide

/-! ### C05: order of the successors -/

/-- `σ` lists the positions `0 … n-1` in the lexicographic order of (class, position). -/
def PriorityOrder (n : Nat) (cls : Nat → Nat) (σ : List Nat) : Prop :=
  σ.Perm (List.range n) ∧ σ.Pairwise (fun a b => cls a < cls b ∨ (cls a = cls b ∧ a < b))

theorem sorted_rows (eh : Bool) (rows : List (LinkDef × LinkStatus × Nat)) :
    ∃ σ, PriorityOrder rows.length (fun k => ((rows[k]?).map (·.2.2)).getD 0) σ ∧
      (sortEntries (rowEntries eh rows)).map (·.task) =
        σ.map (fun k => ⟨eh, ((rows[k]?).map (·.1.dst)).getD ""⟩) := by
  let g : Nat → TaskEntry := fun k => ⟨⟨eh, ((rows[k]?).map (·.1.dst)).getD ""⟩, ((rows[k]?).map (·.2.2)).getD 0⟩
  have hg : rowEntries eh rows = (List.range rows.length).map g := by
    apply List.ext_getElem?
    intro k
    by_cases hk : k < rows.length
    · simp [rowEntries, g, hk]
    · simp [rowEntries, g, hk]
  refine ⟨sortBy (fun k => (g k).enterCode) (List.range rows.length), ⟨sortBy_perm _ _, ?_⟩, ?_⟩
  · exact sortBy_lex _ _ List.pairwise_lt_range
  · rw [hg, sortEntries_map, List.map_map]
    rfl

/-- C05 (after success): the successors entered are the targets of the outgoing links in the lexicographic order of
(class, definition position), where the class is the documented one and links that are not followed come last. -/
theorem C05_order_after_success (eh prio : Bool) (ev : LinkDef → ExprOut) (ls : List LinkDef)
    (rows : List (LinkDef × LinkStatus × Nat)) (h : doneRows prio ev ls = .ok rows) :
    ∃ σ, PriorityOrder ls.length
        (fun k => match ls[k]?, rows[k]? with
          | some l, some r => linkClass prio l.type (r.2.1 = .true)
          | _, _ => 0) σ ∧
      (sortEntries (rowEntries eh rows)).map (·.task) = σ.map (fun k => ⟨eh, ((ls[k]?).map (·.dst)).getD ""⟩) := by
  have hn : ¬ exprFails ls ev := by
    intro hf
    obtain ⟨m, r, h1⟩ := (C03_fails_iff prio ev ls).2 hf
    rw [h] at h1; cases h1
  obtain ⟨rows', h1, h2, h3⟩ := doneRows_ok prio ev ls hn
  rw [h] at h1; cases h1
  obtain ⟨σ, ⟨hp, hs⟩, hm⟩ := sorted_rows eh rows
  have hcls : ∀ k, k < ls.length → ((rows[k]?).map (·.2.2)).getD 0 =
      (match ls[k]?, rows[k]? with
          | some l, some r => linkClass prio l.type (r.2.1 = .true)
          | _, _ => 0) := by
    intro k hk
    have hl : ls[k]? = some ls[k] := List.getElem?_eq_getElem hk
    rcases h3 k _ hl with ⟨hf, h4⟩ | ⟨hf, h4⟩
    · simp only [h4, hl, Option.map_some, Option.getD_some, decide_true, linkClass]
      obtain ⟨l', hl', hc⟩ := hf
      rw [hl] at hl'; cases hl'
      cases hty : ls[k].type with
      | error => simp [hty] at hc
      | _ => cases prio <;> simp [getEnterCode]
    · simp [h4, hl, linkClass]
  refine ⟨σ, ⟨h2 ▸ hp, ?_⟩, ?_⟩
  · refine hs.imp_of_mem ?_
    intro a b ha hb hab
    have ha' : a < ls.length := by have := hp.mem_iff.1 ha; simp at this; omega
    have hb' : b < ls.length := by have := hp.mem_iff.1 hb; simp at this; omega
    simp only [hcls a ha', hcls b hb'] at hab
    exact hab
  · rw [hm]
    apply List.map_congr_left
    intro k hk
    have hk' : k < ls.length := by have := hp.mem_iff.1 hk; simp at this; omega
    have hl : ls[k]? = some ls[k] := List.getElem?_eq_getElem hk'
    rcases h3 k _ hl with ⟨hf, h4⟩ | ⟨hf, h4⟩ <;> simp [h4, hl]

/-- C05 (after failure): the same for a locally handled failure. -/
theorem C05_order_after_failure (eh prio : Bool) (ls : List LinkDef) (rows : List (LinkDef × LinkStatus × Nat))
    (h : errorRows ls = some rows) :
    ∃ σ, PriorityOrder ls.length
        (fun k => match ls[k]? with
          | some l => linkClass prio l.type (l.type = .error)
          | none => 0) σ ∧
      (sortEntries (rowEntries eh rows)).map (·.task) = σ.map (fun k => ⟨eh, ((ls[k]?).map (·.dst)).getD ""⟩) := by
  unfold errorRows at h
  split at h
  · cases h
    obtain ⟨σ, ⟨hp, hs⟩, hm⟩ := sorted_rows eh
      (ls.map (fun l : LinkDef => if l.type = .error then (l, LinkStatus.true, 0) else (l, LinkStatus.false, 4)))
    simp only [List.length_map] at hp
    refine ⟨σ, ⟨hp, ?_⟩, ?_⟩
    · refine hs.imp_of_mem ?_
      intro a b ha hb hab
      have key : ∀ k ∈ σ, (((ls.map (fun l : LinkDef => if l.type = .error then (l, LinkStatus.true, 0)
          else (l, LinkStatus.false, 4)))[k]?).map (·.2.2)).getD 0 =
          (match ls[k]? with
          | some l => linkClass prio l.type (l.type = .error)
          | none => 0) := by
        intro k hk
        have hk' : k < ls.length := by have := hp.mem_iff.1 hk; simp at this; omega
        have hl : ls[k]? = some ls[k] := List.getElem?_eq_getElem hk'
        by_cases hty : ls[k].type = .error <;> simp [hl, hty, linkClass]
      simp only [key a ha, key b hb] at hab
      exact hab
    · rw [hm]
      apply List.map_congr_left
      intro k hk
      have hk' : k < ls.length := by have := hp.mem_iff.1 hk; simp at this; omega
      have hl : ls[k]? = some ls[k] := List.getElem?_eq_getElem hk'
      by_cases hty : ls[k].type = .error <;> simp [hl, hty]
  · cases h

/-- C05: followed successors have a class below 4, the others have class 4, so the former come first. -/
theorem C05_followed_first (prio : Bool) (t t' : LinkType) : linkClass prio t true < linkClass prio t' false := by
  cases prio <;> cases t <;> simp [linkClass]

example : (match doneRows false (fun _ => .ok false) exampleLinks with
    | .ok rows => (sortEntries (rowEntries false rows)).map (·.task.id) | .error _ => []) = ["b", "d", "c", "e"] := by
  decide

/-! ### C45: failing link expressions -/

/-- C45, error part: an expression that reports an error makes the transition fail. What is missing: panics,
see `C45_panic_is_false`. -/
theorem C45_error_not_false_partial (prio : Bool) (ev : LinkDef → ExprOut) (ls : List LinkDef) (l : LinkDef) (m : String)
    (hl : l ∈ ls) (ht : l.type = .expression) (he : ev l = .err m) :
    ∃ m' rows, doneRows prio ev ls = .error (m', rows) :=
  (C03_fails_iff prio ev ls).2 ⟨l, hl, ht, m, he⟩

/-- C45 does not hold for panics: for every list of links, an expression that panics has exactly the same effect as
an expression that is false. -/
theorem C45_panic_is_false (prio : Bool) (ev : LinkDef → ExprOut) (ls : List LinkDef) :
    doneRows prio ev ls =
      doneRows prio (fun l => match ev l with | .panic _ => .ok false | x => x) ls := by
  have hiter : ∀ a l, doneIter prio ev a l =
      doneIter prio (fun l => match ev l with | .panic _ => .ok false | x => x) a l := by
    intro a l
    unfold doneIter
    cases l.type with
    | expression =>
      cases h : ev l with
      | ok b => cases b <;> simp [evalLink, h]
      | err m => simp [evalLink, h]
      | panic m => simp [evalLink, h]
    | _ => rfl
  have hloop : ∀ a, doneLoop prio ev a ls =
      doneLoop prio (fun l => match ev l with | .panic _ => .ok false | x => x) a ls := by
    induction ls with
    | nil => intro a; rfl
    | cons l ls ih =>
      intro a
      simp only [doneLoop, ← hiter]
      split
      · rfl
      · exact ih _
  unfold doneRows
  rw [hloop]

/-- Negation of C45 with a witness: an expression link whose expression panics is treated as not followed. -/
theorem C45_negation : ¬ ∀ (prio : Bool) (ev : LinkDef → ExprOut) (ls : List LinkDef) (l : LinkDef),
    l ∈ ls → l.type = .expression → (∀ b, ev l ≠ .ok b) → ∃ m rows, doneRows prio ev ls = .error (m, rows) := by
  intro h
  obtain ⟨m, rows, h1⟩ := h false (fun _ => .panic "nil map") [⟨0, "a", "b", .expression, ""⟩]
    ⟨0, "a", "b", .expression, ""⟩ (by simp) rfl (by intro b; simp)
  have : doneRows false (fun _ => .panic "nil map") [⟨0, "a", "b", .expression, ""⟩] =
    .ok [(⟨0, "a", "b", .expression, ""⟩, .false, 4)] := rfl
  rw [this] at h1; cases h1

end Flow
