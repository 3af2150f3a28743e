import Verif.Proofs.GraphSim

/-
Link decisions and successor entries of a task that finishes, in terms of the abstract machine of `Verif.Proofs.Graph`.
-/

namespace Flow.GraphM
open Spec

/-- Rows of decisions about the links `ls`: each link is decided, and exactly the followed ones have a code below four. -/
structure RowsOK (ls : List LinkDef) (rows : List (LinkDef × LinkStatus × Nat)) : Prop where
  links : rows.map (·.1) = ls
  row : ∀ r ∈ rows, r.2.1 ≠ .unset ∧ (r.2.2 < 4 ↔ r.2.1 = .true) ∧ r.2.2 ≤ 4

theorem insertEntry_pairwise {Q : TaskEntry → TaskEntry → Prop} {e : TaskEntry} {es : List TaskEntry}
    (hQ : ∀ x ∈ es, Q e x → x.enterCode < e.enterCode → Q x e) (h : es.Pairwise Q) (he : ∀ x ∈ es, Q e x) :
    (insertEntry e es).Pairwise Q := by
  induction es with
  | nil => simp [insertEntry]
  | cons x xs ih =>
    rw [List.pairwise_cons] at h
    unfold insertEntry
    split
    · rw [List.pairwise_cons, List.pairwise_cons]; exact ⟨he, h⟩
    · rename_i hlt
      rw [List.pairwise_cons]
      refine ⟨fun y hy => ?_, ih (fun z hz => hQ z (List.mem_cons_of_mem _ hz)) h.2 fun z hz => he z (List.mem_cons_of_mem _ hz)⟩
      rcases List.mem_cons.1 ((insertEntry_perm e xs).mem_iff.1 hy) with rfl | hy
      · exact hQ x (by simp) (he x (by simp)) (by omega)
      · exact h.1 y hy

theorem sortEntries_pairwise {Q : TaskEntry → TaskEntry → Prop} {es : List TaskEntry}
    (hQ : ∀ x ∈ es, ∀ y ∈ es, Q y x → x.enterCode < y.enterCode → Q x y) (h : es.Pairwise Q) : (sortEntries es).Pairwise Q := by
  induction es with
  | nil => simp [sortEntries]
  | cons e es ih =>
    rw [List.pairwise_cons] at h
    unfold sortEntries
    have hm : ∀ x, x ∈ sortEntries es ↔ x ∈ es := fun x => (sortEntries_perm es).mem_iff
    refine insertEntry_pairwise (fun x hx => hQ x (List.mem_cons_of_mem _ ((hm x).1 hx)) e (by simp))
      (ih (fun x hx y hy => hQ x (List.mem_cons_of_mem _ hx) y (List.mem_cons_of_mem _ hy)) h.2) fun x hx => h.1 x ((hm x).1 hx)

variable {g : Graph}

theorem RowsOK.nodup (wf : WellFormed g) {u : TaskId} {rows : List (LinkDef × LinkStatus × Nat)} (h : RowsOK (g.toLinks u) rows) :
    (rows.map (fun r => r.1.id)).Nodup := by
  have : rows.map (fun r => r.1.id) = (g.toLinks u).map (·.id) := by rw [← h.links, List.map_map]; rfl
  rw [this]
  exact wf.links.sublist ((List.filter_sublist (l := g.links)).map _)

theorem RowsOK.mem {u : TaskId} {rows : List (LinkDef × LinkStatus × Nat)} (h : RowsOK (g.toLinks u) rows) {r : LinkDef × LinkStatus × Nat}
    (hr : r ∈ rows) : r.1 ∈ g.links ∧ r.1.src = u := by
  have : r.1 ∈ g.toLinks u := by rw [← h.links]; exact List.mem_map.2 ⟨r, hr, rfl⟩
  unfold Graph.toLinks at this
  simpa using this

theorem RowsOK.of_link {u : TaskId} {rows : List (LinkDef × LinkStatus × Nat)} (h : RowsOK (g.toLinks u) rows) {l : LinkDef}
    (hl : l ∈ g.links) (hu : l.src = u) : ∃ r ∈ rows, r.1 = l := by
  have : l ∈ g.toLinks u := by unfold Graph.toLinks; simp [hl, hu]
  rw [← h.links] at this
  exact List.mem_map.1 this

/-- The entries, before sorting: targets differ, and of two entries that are not followed the earlier one does not lead to
the later one. -/
theorem RowsOK.pairwise (os : OrderSafe g) {u : TaskId} {rows : List (LinkDef × LinkStatus × Nat)} (h : RowsOK (g.toLinks u) rows)
    (hsafe : IsStart g u → (∀ l ∈ g.links, l.src = u → l.type ≠ .error) → ∀ r ∈ rows, Always r.1 → r.2.2 < 4) :
    (rowEntries false rows).Pairwise (fun x y => x.task.id ≠ y.task.id ∧
      (4 ≤ x.enterCode → 4 ≤ y.enterCode → ¬ Path g x.task.id y.task.id)) := by
  have hp := os u
  change (g.toLinks u).Pairwise _ at hp
  rw [← h.links, List.pairwise_map] at hp
  unfold rowEntries
  rw [List.pairwise_map]
  refine List.Pairwise.imp_of_mem ?_ hp
  rintro r1 r2 h1 h2 ⟨h3, h4⟩
  refine ⟨h3, fun h5 h6 h7 => ?_⟩
  dsimp only at h5 h6 h7
  obtain ⟨h8, h9, h10⟩ := h4 h7
  rcases h10 with h10 | h10
  · have := hsafe h8 h9 r1 h1 h10; omega
  · have := hsafe h8 h9 r2 h2 h10; omega

/-- A list of entries with the elements of the rows, in an order that respects the codes. -/
theorem RowsOK.finish (wf : WellFormed g) {u : TaskId} {rows : List (LinkDef × LinkStatus × Nat)}
    (h : RowsOK (g.toLinks u) rows) {es : List TaskEntry} (hm : ∀ x, x ∈ es ↔ x ∈ rowEntries false rows)
    (hs : es.Pairwise (fun x y => x.enterCode ≤ y.enterCode))
    (hp : es.Pairwise (fun x y => x.task.id ≠ y.task.id ∧ (4 ≤ x.enterCode → 4 ≤ y.enterCode → ¬ Path g x.task.id y.task.id)))
    (G : GS) (s : TaskStatus) : GInv.Finish g G u s (SimI.decRows G.lk rows) (SimI.decRows G.dec rows) es := by
  have hn := h.nodup wf
  have hent : ∀ x, x ∈ es ↔ ∃ r ∈ rows, x = ⟨⟨false, r.1.dst⟩, r.2.2⟩ := by
    intro x
    rw [hm]; unfold rowEntries; rw [List.mem_map]
    exact ⟨fun ⟨r, h1, h2⟩ => ⟨r, h1, h2.symm⟩, fun ⟨r, h1, h2⟩ => ⟨r, h1, h2.symm⟩⟩
  refine ⟨?_, ?_, ⟨?_, ?_⟩, ?_⟩
  · intro l hl hu
    obtain ⟨r, hr, rfl⟩ := h.of_link hl hu
    rw [SimI.decRows_mem hn hr, SimI.decRows_mem hn hr]
    exact ⟨rfl, (h.row r hr).1⟩
  · intro k hk
    have : ∀ r ∈ rows, r.1.id ≠ k := fun r hr => hk r.1 (h.mem hr).1 (h.mem hr).2
    exact ⟨SimI.decRows_ne this, SimI.decRows_ne this⟩
  · intro x hx
    obtain ⟨r, hr, rfl⟩ := (hent x).1 hx
    exact ⟨rfl, r.1, (h.mem hr).1, (h.mem hr).2, rfl, by rw [SimI.decRows_mem hn hr]; exact (h.row r hr).2.1⟩
  · refine (hs.and hp).imp ?_
    rintro x y ⟨h1, h2, h3⟩
    exact ⟨h2, h1, fun h4 => h3 h4 (by omega)⟩
  · intro l hl hu
    obtain ⟨r, hr, rfl⟩ := h.of_link hl hu
    exact ⟨_, (hent _).2 ⟨r, hr, rfl⟩, rfl⟩

theorem RowsOK.finishSorted (wf : WellFormed g) (os : OrderSafe g) {u : TaskId} {rows : List (LinkDef × LinkStatus × Nat)}
    (h : RowsOK (g.toLinks u) rows) (hsafe : IsStart g u → (∀ l ∈ g.links, l.src = u → l.type ≠ .error) → ∀ r ∈ rows, Always r.1 → r.2.2 < 4)
    (G : GS) (s : TaskStatus) :
    GInv.Finish g G u s (SimI.decRows G.lk rows) (SimI.decRows G.dec rows) (sortEntries (rowEntries false rows)) := by
  refine h.finish wf (fun x => (sortEntries_perm _).mem_iff) (sortEntries_sorted _) (sortEntries_pairwise ?_ (h.pairwise os hsafe)) G s
  rintro x hx y hy ⟨h1, h2⟩ h3
  refine ⟨Ne.symm h1, fun h4 _ => ?_⟩
  unfold rowEntries at hy
  obtain ⟨r, hr, rfl⟩ := List.mem_map.1 hy
  have := (h.row r hr).2.2
  dsimp only at h3; omega

/-! ### The decisions of the model -/

theorem skipRows_ok (ls : List LinkDef) : RowsOK ls (skipRows ls) := by
  refine ⟨by simp [skipRows, Function.comp_def], ?_⟩
  intro r hr
  obtain ⟨l, _, rfl⟩ := List.mem_map.1 hr
  simp

theorem skipRows_finish (wf : WellFormed g) (os : OrderSafe g) {u : TaskId} (hu : ¬ IsStart g u) (G : GS) (s : TaskStatus) :
    GInv.Finish g G u s (SimI.decRows G.lk (skipRows (g.toLinks u))) (SimI.decRows G.dec (skipRows (g.toLinks u)))
      (rowEntries false (skipRows (g.toLinks u))) := by
  have h := skipRows_ok (g.toLinks u)
  refine h.finish wf (fun x => Iff.rfl) ?_ (h.pairwise os fun hc => absurd hc hu) G s
  unfold rowEntries skipRows
  rw [List.map_map, List.pairwise_map]
  exact List.Pairwise.imp (R := fun _ _ => True) (fun _ => Nat.le_refl _) (List.pairwise_of_forall (fun _ _ => trivial))

theorem errorRows_ok {ls : List LinkDef} {rows : List (LinkDef × LinkStatus × Nat)} (h : errorRows ls = some rows) :
    RowsOK ls rows ∧ (∃ l ∈ ls, l.type = .error) ∧ ∀ r ∈ rows, r.2.1 = if r.1.type = .error then .true else .false := by
  unfold errorRows at h
  split at h
  · rename_i ha
    cases h
    rw [List.any_eq_true] at ha
    refine ⟨⟨?_, ?_⟩, ?_, ?_⟩
    · rw [List.map_map]
      have : ((fun r : LinkDef × LinkStatus × Nat => r.1) ∘ fun l : LinkDef => if l.type = .error then (l, LinkStatus.true, 0) else (l, .false, 4)) = id := by
        funext l; simp only [Function.comp]; split <;> rfl
      rw [this, List.map_id]
    · intro r hr
      obtain ⟨l, _, rfl⟩ := List.mem_map.1 hr
      split <;> simp
    · obtain ⟨l, h1, h2⟩ := ha
      exact ⟨l, h1, by simpa using h2⟩
    · intro r hr
      obtain ⟨l, _, rfl⟩ := List.mem_map.1 hr
      split <;> simp_all
  · cases h

theorem getEnterCode_lt (prio : Bool) {t : LinkType} (h : t ≠ .error) : getEnterCode prio t < 4 := by
  cases t <;> cases prio <;> simp_all [getEnterCode]

theorem doneRows_rowsOK {prio : Bool} {ev : LinkDef → ExprOut} {ls : List LinkDef} {rows : List (LinkDef × LinkStatus × Nat)}
    (h : doneRows prio ev ls = .ok rows) :
    RowsOK ls rows ∧ ¬ exprFails ls ev ∧ (∀ r ∈ rows, Always r.1 → r.2.2 < 4) ∧
      ∀ (k : Nat) (l : LinkDef), ls[k]? = some l → ∃ r ∈ rows, r.1 = l ∧ (r.2.1 = .true ↔ followedAfterSuccess ls ev k) ∧
        (r.2.1 = .true ∨ r.2.1 = .false) := by
  by_cases hf : exprFails ls ev
  · obtain ⟨m, a, h1⟩ := doneLoop_error prio ev ls {} hf
    unfold doneRows at h
    rw [h1] at h
    cases h
  · obtain ⟨rows', h1, h2, h3⟩ := doneRows_ok prio ev ls hf
    rw [h] at h1; cases h1
    have hrow : ∀ (k : Nat) (r : LinkDef × LinkStatus × Nat), rows[k]? = some r → ∃ l, ls[k]? = some l ∧
        ((followedAfterSuccess ls ev k ∧ r = (l, .true, getEnterCode prio l.type)) ∨ (¬ followedAfterSuccess ls ev k ∧ r = (l, .false, 4))) := by
      intro k r hk
      have hlt := (List.getElem?_eq_some_iff.1 hk).1
      refine ⟨ls[k], List.getElem?_eq_getElem (by omega), ?_⟩
      rcases h3 k ls[k] (List.getElem?_eq_getElem (by omega)) with ⟨h4, h5⟩ | ⟨h4, h5⟩
      · rw [hk] at h5; cases h5; exact Or.inl ⟨h4, rfl⟩
      · rw [hk] at h5; cases h5; exact Or.inr ⟨h4, rfl⟩
    refine ⟨⟨?_, ?_⟩, hf, ?_, ?_⟩
    · apply List.ext_getElem?
      intro k
      rw [List.getElem?_map]
      cases hk : rows[k]? with
      | none =>
        rw [List.getElem?_eq_none_iff] at hk
        rw [List.getElem?_eq_none (by omega)]; rfl
      | some r =>
        obtain ⟨l, h4, h5⟩ := hrow k r hk
        rw [h4]
        rcases h5 with ⟨_, rfl⟩ | ⟨_, rfl⟩ <;> rfl
    · intro r hr
      obtain ⟨k, hk⟩ := List.getElem?_of_mem hr
      obtain ⟨l, h4, h5⟩ := hrow k r hk
      rcases h5 with ⟨h6, rfl⟩ | ⟨_, rfl⟩
      · have : l.type ≠ .error := by
          obtain ⟨l', h7, h8⟩ := h6
          rw [h4] at h7; cases h7
          rcases h8 with h8 | h8 | ⟨h8, _⟩ | ⟨h8, _⟩ <;> rw [h8] <;> exact fun hc => nomatch hc
        have := getEnterCode_lt prio this
        refine ⟨(fun hc => nomatch hc), ⟨fun _ => rfl, fun _ => this⟩, ?_⟩
        dsimp only; omega
      · simp
    · intro r hr hal
      obtain ⟨k, hk⟩ := List.getElem?_of_mem hr
      obtain ⟨l, h4, h5⟩ := hrow k r hk
      rcases h5 with ⟨_, rfl⟩ | ⟨h6, rfl⟩
      · refine getEnterCode_lt prio ?_
        rcases hal with hal | hal <;> rw [hal] <;> exact fun hc => nomatch hc
      · exact absurd ⟨l, h4, hal.elim Or.inl (fun hx => Or.inr (Or.inl hx))⟩ h6
    · intro k l hl
      rcases h3 k l hl with ⟨h4, h5⟩ | ⟨h4, h5⟩
      · exact ⟨_, List.mem_of_getElem? h5, rfl, ⟨fun _ => h4, fun _ => rfl⟩, Or.inl rfl⟩
      · exact ⟨_, List.mem_of_getElem? h5, rfl, ⟨(fun hc => nomatch hc), fun hc => absurd hc h4⟩, Or.inr rfl⟩

theorem doneRows_finish (wf : WellFormed g) (os : OrderSafe g) {prio : Bool} {ev : LinkDef → ExprOut} {u : TaskId}
    {rows : List (LinkDef × LinkStatus × Nat)} (h : doneRows prio ev (g.toLinks u) = .ok rows) (G : GS) (s : TaskStatus) :
    GInv.Finish g G u s (SimI.decRows G.lk rows) (SimI.decRows G.dec rows) (sortEntries (rowEntries false rows)) :=
  (doneRows_rowsOK h).1.finishSorted wf os (fun _ _ => (doneRows_rowsOK h).2.2.1) G s

theorem errorRows_finish (wf : WellFormed g) (os : OrderSafe g) {u : TaskId}
    {rows : List (LinkDef × LinkStatus × Nat)} (h : errorRows (g.toLinks u) = some rows) (G : GS) (s : TaskStatus) :
    GInv.Finish g G u s (SimI.decRows G.lk rows) (SimI.decRows G.dec rows) (sortEntries (rowEntries false rows)) := by
  refine (errorRows_ok h).1.finishSorted wf os (fun _ hno => ?_) G s
  obtain ⟨l, h1, h2⟩ := (errorRows_ok h).2.1
  unfold Graph.toLinks at h1
  simp only [List.mem_filter, decide_eq_true_eq] at h1
  exact absurd h2 (hno l h1.1 h1.2)

end Flow.GraphM
