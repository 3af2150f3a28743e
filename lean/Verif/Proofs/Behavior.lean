import Verif.Model.Behavior
import Verif.Spec.Links

/-! Helper lemmas about the decisions of `Verif.Model.Behavior`. -/

namespace Flow

open Spec

/-! ### Enter -/

theorem enterLoop_fst (ls : List LinkStatus) (b : Bool) :
    (enterLoop ls b).1 = true ↔ ∀ s ∈ ls, decided s := by
  induction ls generalizing b with
  | nil => simp [enterLoop]
  | cons s ss ih =>
    cases s <;> simp [enterLoop, LinkStatus.code, decided, ih]

theorem enterLoop_snd (ls : List LinkStatus) (b : Bool) (h : ∀ s ∈ ls, decided s) :
    (enterLoop ls b).2 = (b && !(ls.any (· = .true))) := by
  induction ls generalizing b with
  | nil => simp [enterLoop]
  | cons s ss ih =>
    have hs := h s (by simp)
    have ht : ∀ s ∈ ss, decided s := fun x hx => h x (by simp [hx])
    cases s <;> simp [enterLoop, LinkStatus.code, decided, ih _ ht] at hs ⊢

theorem enterDecision_eval (ls : List LinkStatus) :
    enterDecision ls = .eval ↔ (∀ s ∈ ls, decided s) ∧ (ls = [] ∨ LinkStatus.true ∈ ls) := by
  unfold enterDecision
  by_cases h0 : ls.length = 0
  · have : ls = [] := by cases ls <;> simp_all
    subst this; simp
  · have hne : ls ≠ [] := by intro h; simp [h] at h0
    simp only [h0, if_false]
    by_cases hd : ∀ s ∈ ls, decided s
    · have h1 := (enterLoop_fst ls true).2 hd
      have h2 := enterLoop_snd ls true hd
      simp only [h1, h2, if_true]
      by_cases ht : LinkStatus.true ∈ ls
      · simp only [ht, or_true, and_true]; simpa [ht] using hd
      · have : ls.any (· = .true) = false := by
          rw [List.any_eq_false]; intro x hx; simp; intro h; exact ht (h ▸ hx)
        simp only [this]
        simp [hne, ht]
    · have h1 : (enterLoop ls true).1 = false := by
        cases hb : (enterLoop ls true).1 with
        | false => rfl
        | true => exact absurd ((enterLoop_fst ls true).1 hb) hd
      simp [h1, hd]

theorem enterDecision_skip (ls : List LinkStatus) :
    enterDecision ls = .skip ↔ ls ≠ [] ∧ (∀ s ∈ ls, decided s) ∧ LinkStatus.true ∉ ls := by
  unfold enterDecision
  by_cases h0 : ls.length = 0
  · have : ls = [] := by cases ls <;> simp_all
    subst this; simp
  · have hne : ls ≠ [] := by intro h; simp [h] at h0
    simp only [h0, if_false]
    by_cases hd : ∀ s ∈ ls, decided s
    · have h1 := (enterLoop_fst ls true).2 hd
      have h2 := enterLoop_snd ls true hd
      simp only [h1, h2, if_true]
      by_cases ht : LinkStatus.true ∈ ls
      · simp [ht]
      · have : ls.any (· = .true) = false := by
          rw [List.any_eq_false]; intro x hx; simp; intro h; exact ht (h ▸ hx)
        simp only [this]
        simp only [ne_eq, hne, not_false_eq_true, ht, and_true, true_and]; simpa using hd
    · have h1 : (enterLoop ls true).1 = false := by
        cases hb : (enterLoop ls true).1 with
        | false => rfl
        | true => exact absurd ((enterLoop_fst ls true).1 hb) hd
      simp [h1, hd]

theorem enterDecision_notReady (ls : List LinkStatus) :
    enterDecision ls = .notReady ↔ LinkStatus.unset ∈ ls := by
  have hdec : (∀ s ∈ ls, decided s) ↔ LinkStatus.unset ∉ ls := by
    constructor
    · intro h hm; exact h _ hm
    · intro h s hs; cases s <;> simp [decided]; exact h hs
  cases h : enterDecision ls with
  | eval => have := (enterDecision_eval ls).1 h; simp [hdec] at this; simp [this]
  | skip => have := (enterDecision_skip ls).1 h; simp [hdec] at this; simp [this]
  | notReady =>
    simp
    apply Classical.byContradiction
    intro hn
    have hd := hdec.2 hn
    by_cases ht : ls = [] ∨ LinkStatus.true ∈ ls
    · have := (enterDecision_eval ls).2 ⟨hd, ht⟩; rw [h] at this; cases this
    · have := (enterDecision_skip ls).2 ⟨fun h => ht (Or.inl h), hd, fun h => ht (Or.inr h)⟩
      rw [h] at this; cases this

/-! ### Done -/

/-- Status and code of a link before the otherwise step. -/
def baseRow (prio : Bool) (ev : LinkDef → ExprOut) (l : LinkDef) : LinkDef × LinkStatus × Nat :=
  match l.type with
  | .error => (l, .false, 4)
  | .otherwise => (l, .false, 4)
  | .dependency => (l, .true, getEnterCode prio .dependency)
  | .label => (l, .true, getEnterCode prio .label)
  | .expression => if ev l = .ok true then (l, .true, getEnterCode prio .expression) else (l, .false, 4)

/-- Position of the last otherwise link, counted from `n`; `o` if there is none. -/
def lastOther : Nat → Option Nat → List LinkDef → Option Nat
  | _, o, [] => o
  | n, o, l :: ls => lastOther (n + 1) (if l.type = .otherwise then some n else o) ls

theorem doneLoop_ok (prio : Bool) (ev : LinkDef → ExprOut) (ls : List LinkDef) (a : DoneAcc)
    (h : ¬ exprFails ls ev) :
    doneLoop prio ev a ls = .ok
      { rows := a.rows ++ ls.map (baseRow prio ev)
        followed := a.followed || ls.any (fun l => l.type = .expression ∧ ev l = .ok true)
        hasExpr := a.hasExpr || ls.any (fun l => l.type = .expression)
        other := lastOther a.rows.length a.other ls } := by
  induction ls generalizing a with
  | nil => simp [doneLoop, lastOther]
  | cons l ls ih =>
    have ht : ¬ exprFails ls ev := by
      intro ⟨x, hx, h1⟩; exact h ⟨x, by simp [hx], h1⟩
    have hl : l.type = .expression → ∀ m, ev l ≠ .err m := by
      intro h1 m h2; exact h ⟨l, by simp, h1, m, h2⟩
    cases hty : l.type with
    | expression =>
      cases hev : ev l with
      | err m => exact absurd hev (hl hty m)
      | panic m => simp [doneLoop, doneIter, hty, hev, evalLink, ih _ ht, baseRow, lastOther]
      | ok b =>
        cases b <;> simp [doneLoop, doneIter, hty, hev, evalLink, ih _ ht, baseRow, lastOther]
    | _ => simp [doneLoop, doneIter, hty, ih _ ht, baseRow, lastOther]

theorem doneLoop_error (prio : Bool) (ev : LinkDef → ExprOut) (ls : List LinkDef) (a : DoneAcc)
    (h : exprFails ls ev) : ∃ m a', doneLoop prio ev a ls = .error (m, a') := by
  induction ls generalizing a with
  | nil => obtain ⟨x, hx, _⟩ := h; simp at hx
  | cons l ls ih =>
    by_cases hl : l.type = .expression ∧ ∃ m, ev l = .err m
    · obtain ⟨h1, m, h2⟩ := hl
      simp [doneLoop, doneIter, h1, h2, evalLink]
    · have ht : exprFails ls ev := by
        obtain ⟨x, hx, h1⟩ := h
        rcases List.mem_cons.1 hx with h2 | h2
        · subst h2; exact absurd h1 hl
        · exact ⟨x, h2, h1⟩
      cases hty : l.type with
      | expression =>
        cases hev : ev l with
        | err m => exact absurd ⟨hty, m, hev⟩ hl
        | panic m => simp [doneLoop, doneIter, hty, hev, evalLink]; exact ih _ ht
        | ok b => cases b <;> simp [doneLoop, doneIter, hty, hev, evalLink] <;> exact ih _ ht
      | _ => simp [doneLoop, doneIter, hty]; exact ih _ ht

/-- The error reported is that of the first failing expression, and the rows are those of a prefix. -/
theorem doneLoop_error_rows (prio : Bool) (ev : LinkDef → ExprOut) (ls : List LinkDef) (a : DoneAcc)
    (m : String) (a' : DoneAcc) (h : doneLoop prio ev a ls = .error (m, a')) :
    ∃ pre l post, ls = pre ++ l :: post ∧ l.type = .expression ∧ ev l = .err m ∧
      ¬ exprFails pre ev ∧ a'.rows = a.rows ++ pre.map (baseRow prio ev) ++ [(l, .false, 4)] := by
  induction ls generalizing a with
  | nil => simp [doneLoop] at h
  | cons l ls ih =>
    by_cases hl : l.type = .expression ∧ ∃ m, ev l = .err m
    · obtain ⟨h1, m', h2⟩ := hl
      simp [doneLoop, doneIter, h1, h2, evalLink] at h
      obtain ⟨h3, h4⟩ := h
      subst h3
      refine ⟨[], l, ls, by simp, h1, h2, ?_, ?_⟩
      · rintro ⟨x, hx, _⟩; simp at hx
      · rw [← h4]; simp
    · have key : ∀ a2 : DoneAcc, doneLoop prio ev a2 ls = .error (m, a') →
          a2.rows = a.rows ++ [baseRow prio ev l] →
          ∃ pre' x post, l :: ls = pre' ++ x :: post ∧ x.type = .expression ∧ ev x = .err m ∧
            ¬ exprFails pre' ev ∧ a'.rows = a.rows ++ pre'.map (baseRow prio ev) ++ [(x, .false, 4)] := by
        intro a2 h2 hr
        obtain ⟨pre, x, post, e1, e2, e3, e4, e5⟩ := ih a2 h2
        refine ⟨l :: pre, x, post, by simp [e1], e2, e3, ?_, ?_⟩
        · rintro ⟨y, hy, h5⟩
          rcases List.mem_cons.1 hy with h6 | h6
          · subst h6; exact hl h5
          · exact e4 ⟨y, h6, h5⟩
        · rw [e5, hr]; simp
      cases hty : l.type with
      | expression =>
        cases hev : ev l with
        | err m => exact absurd ⟨hty, m, hev⟩ hl
        | panic m' =>
          simp [doneLoop, doneIter, hty, hev, evalLink] at h
          exact key _ h (by simp [baseRow, hty, hev])
        | ok b =>
          cases b <;> simp [doneLoop, doneIter, hty, hev, evalLink] at h <;>
            exact key _ h (by simp [baseRow, hty, hev])
      | _ =>
        simp [doneLoop, doneIter, hty] at h
        exact key _ h (by simp [baseRow, hty])

theorem lastOther_spec (ls : List LinkDef) (n : Nat) (o : Option Nat) :
    (∀ i, lastOther n o ls = some i → (o = some i ∧ ∀ l ∈ ls, l.type ≠ .otherwise) ∨
      (n ≤ i ∧ ∃ l, ls[i - n]? = some l ∧ l.type = .otherwise ∧
        ∀ j l', i - n < j → ls[j]? = some l' → l'.type ≠ .otherwise)) ∧
    (lastOther n o ls = none → o = none ∧ ∀ l ∈ ls, l.type ≠ .otherwise) := by
  induction ls generalizing n o with
  | nil => simp [lastOther]
  | cons l ls ih =>
    obtain ⟨ih1, ih2⟩ := ih (n + 1) (if l.type = .otherwise then some n else o)
    constructor
    · intro i hi
      rcases ih1 i hi with ⟨h1, h2⟩ | ⟨h1, x, h2, h3, h4⟩
      · by_cases hl : l.type = .otherwise
        · rw [if_pos hl] at h1
          cases h1
          right
          refine ⟨Nat.le_refl _, l, by simp, hl, ?_⟩
          intro j l' hj hl'
          obtain ⟨j', rfl⟩ : ∃ j', j = j' + 1 := ⟨j - 1, by omega⟩
          simp at hl'
          exact h2 l' (List.mem_of_getElem? hl')
        · rw [if_neg hl] at h1
          left
          refine ⟨h1, ?_⟩
          intro x hx
          rcases List.mem_cons.1 hx with h | h
          · subst h; exact hl
          · exact h2 x h
      · right
        have e : i - n = (i - (n + 1)) + 1 := by omega
        refine ⟨by omega, x, by rw [e]; simpa using h2, h3, ?_⟩
        intro j l' hj hl'
        obtain ⟨j', rfl⟩ : ∃ j', j = j' + 1 := ⟨j - 1, by omega⟩
        simp at hl'
        exact h4 j' l' (by omega) hl'
    · intro h
      obtain ⟨h1, h2⟩ := ih2 h
      by_cases hl : l.type = .otherwise
      · rw [if_pos hl] at h1; cases h1
      · rw [if_neg hl] at h1
        refine ⟨h1, ?_⟩
        intro x hx
        rcases List.mem_cons.1 hx with h3 | h3
        · subst h3; exact hl
        · exact h2 x h3

/-- Row of a link after the whole of `Done`. -/
theorem doneRows_ok (prio : Bool) (ev : LinkDef → ExprOut) (ls : List LinkDef) (h : ¬ exprFails ls ev) :
    ∃ rows, doneRows prio ev ls = .ok rows ∧ rows.length = ls.length ∧
      ∀ (k : Nat) (l : LinkDef), ls[k]? = some l →
        (followedAfterSuccess ls ev k ∧ rows[k]? = some (l, .true, getEnterCode prio l.type)) ∨
        (¬ followedAfterSuccess ls ev k ∧ rows[k]? = some (l, .false, 4)) := by
  have hE := doneLoop_ok prio ev ls {} h
  simp only [List.nil_append, List.length_nil, Bool.false_or] at hE
  unfold doneRows
  rw [hE]
  refine ⟨_, rfl, ?_, ?_⟩
  · unfold doneOtherwise
    split
    · split <;> simp
    · simp
  · intro k l hk
    obtain ⟨s1, s2⟩ := lastOther_spec ls 0 none
    have base : (ls.map (baseRow prio ev))[k]? = some (baseRow prio ev l) := by simp [hk]
    have anyE : ls.any (fun l => l.type = .expression) = true ↔ ∃ e ∈ ls, e.type = .expression := by
      simp
    have anyT : ls.any (fun l => l.type = .expression ∧ ev l = .ok true) = true ↔ ∃ j, exprTrue ls ev j := by
      simp only [List.any_eq_true, decide_eq_true_eq]
      constructor
      · rintro ⟨x, hx, h1, h2⟩
        obtain ⟨j, hj⟩ := List.getElem?_of_mem hx
        exact ⟨j, x, hj, h1, h2⟩
      · rintro ⟨j, x, hj, h1, h2⟩
        exact ⟨x, List.mem_of_getElem? hj, h1, h2⟩
    have hfol : followedAfterSuccess ls ev k ↔
        (l.type = .dependency ∨ l.type = .label ∨ (l.type = .expression ∧ ev l = .ok true) ∨
          (l.type = .otherwise ∧
            (∀ j l', k < j → ls[j]? = some l' → l'.type ≠ .otherwise) ∧
            (∃ e ∈ ls, e.type = .expression) ∧
            (∀ j, ¬ exprTrue ls ev j))) := by
      constructor
      · rintro ⟨l', hl', hh⟩
        rw [hk] at hl'; cases hl'; exact hh
      · intro hh; exact ⟨l, hk, hh⟩
    cases hty : l.type with
    | otherwise =>
      have hb : baseRow prio ev l = (l, .false, 4) := by simp [baseRow, hty]
      by_cases hf : followedAfterSuccess ls ev k
      · left
        refine ⟨hf, ?_⟩
        obtain ⟨l', hl', hcase⟩ := hf
        rw [hk] at hl'; cases hl'
        simp only [hty, reduceCtorEq, false_and, true_and, false_or] at hcase
        obtain ⟨hlast, hex, hnone⟩ := hcase
        have ho : lastOther 0 none ls = some k := by
          cases hlo : lastOther 0 none ls with
          | none => exact absurd hty ((s2 hlo).2 l (List.mem_of_getElem? hk))
          | some i =>
            rcases s1 i hlo with ⟨h1, _⟩ | ⟨_, x, hx, hxt, hxl⟩
            · cases h1
            · simp only [Nat.sub_zero] at hx hxl
              rcases Nat.lt_trichotomy i k with h1 | h1 | h1
              · exact absurd hty (hxl k l h1 hk)
              · rw [h1]
              · exact absurd hxt (hlast i x h1 hx)
        have ha : (ls.any fun l => decide (l.type = LinkType.expression)) = true := anyE.2 hex
        have hb' : (ls.any fun l => decide (l.type = LinkType.expression ∧ ev l = ExprOut.ok true)) = false := by
          cases hq : (ls.any fun l => decide (l.type = LinkType.expression ∧ ev l = ExprOut.ok true)) with
          | false => rfl
          | true => obtain ⟨j, hj⟩ := anyT.1 hq; exact absurd hj (hnone j)
        simp only [doneOtherwise, ho, ha, hb', Bool.not_false, Bool.and_self, if_true]
        rw [List.getElem?_modify, base]
        simp [hb, hty]
      · right
        refine ⟨hf, ?_⟩
        unfold doneOtherwise
        split
        · rename_i i hi
          split
          · rename_i hc
            simp only [Bool.and_eq_true, Bool.not_eq_true'] at hc
            have hik : i ≠ k := by
              intro hik
              subst hik
              apply hf
              refine ⟨l, hk, Or.inr (Or.inr (Or.inr ⟨hty, ?_, anyE.1 hc.1, ?_⟩))⟩
              · rcases s1 i hi with ⟨h1, _⟩ | ⟨_, x, hx, hxt, hxl⟩
                · cases h1
                · simpa using hxl
              · intro j hj
                have := anyT.2 ⟨j, hj⟩
                have h2 := hc.2
                simp only [this] at h2
                cases h2
            rw [List.getElem?_modify, base]
            simp [hik, hb]
          · rw [base, hb]
        · rw [base, hb]
    | _ =>
      have hrow : (doneOtherwise prio
          { rows := ls.map (baseRow prio ev)
            followed := ls.any (fun l => l.type = .expression ∧ ev l = .ok true)
            hasExpr := ls.any (fun l => l.type = .expression)
            other := lastOther 0 none ls })[k]? = some (baseRow prio ev l) := by
        unfold doneOtherwise
        split
        · rename_i i hi
          split
          · have hik : i ≠ k := by
              intro hik
              subst hik
              rcases s1 i hi with ⟨h1, _⟩ | ⟨_, x, hx, hxt, hxl⟩
              · cases h1
              · simp only [Nat.sub_zero, hk] at hx; cases hx; rw [hty] at hxt; cases hxt
            rw [List.getElem?_modify, base]
            simp [hik]
          · exact base
        · exact base
      rw [hrow]
      rw [hfol]
      simp only [hty, baseRow, reduceCtorEq, false_and, false_or, or_false, true_and, or_true,
        not_true_eq_false, not_false_eq_true]
      first
        | done
        | (by_cases hev : ev l = .ok true <;> simp [hev])

/-! ### Sorting -/

theorem insertEntry_perm (e : TaskEntry) (es : List TaskEntry) : (insertEntry e es).Perm (e :: es) := by
  induction es with
  | nil => simp [insertEntry]
  | cons x xs ih =>
    simp only [insertEntry]
    split
    · exact List.Perm.refl _
    · exact (List.Perm.cons x ih).trans (List.Perm.swap e x xs)

theorem sortEntries_perm (es : List TaskEntry) : (sortEntries es).Perm es := by
  induction es with
  | nil => simp [sortEntries]
  | cons e es ih => exact (insertEntry_perm e _).trans (List.Perm.cons e ih)

theorem insertEntry_sorted (e : TaskEntry) (es : List TaskEntry)
    (h : es.Pairwise (fun a b => a.enterCode ≤ b.enterCode)) :
    (insertEntry e es).Pairwise (fun a b => a.enterCode ≤ b.enterCode) := by
  induction es with
  | nil => simp [insertEntry]
  | cons x xs ih =>
    simp only [insertEntry]
    have hx := List.pairwise_cons.1 h
    split
    · rename_i hle
      refine List.pairwise_cons.2 ⟨?_, h⟩
      intro a ha
      rcases List.mem_cons.1 ha with h1 | h1
      · subst h1; exact hle
      · exact Nat.le_trans hle (hx.1 a h1)
    · rename_i hle
      refine List.pairwise_cons.2 ⟨?_, ih hx.2⟩
      intro a ha
      rcases List.mem_cons.1 ((insertEntry_perm e xs).mem_iff.1 ha) with h1 | h1
      · subst h1; omega
      · exact hx.1 a h1

theorem sortEntries_sorted (es : List TaskEntry) :
    (sortEntries es).Pairwise (fun a b => a.enterCode ≤ b.enterCode) := by
  induction es with
  | nil => simp [sortEntries]
  | cons e es ih => exact insertEntry_sorted e _ ih

theorem insertEntry_filter (e : TaskEntry) (es : List TaskEntry) (c : Nat)
    (hs : es.Pairwise (fun a b => a.enterCode ≤ b.enterCode)) :
    (insertEntry e es).filter (·.enterCode = c) =
      if e.enterCode = c then e :: es.filter (·.enterCode = c) else es.filter (·.enterCode = c) := by
  induction es with
  | nil => simp [insertEntry, List.filter_cons]
  | cons x xs ih =>
    have hx := List.pairwise_cons.1 hs
    simp only [insertEntry]
    split
    · simp [List.filter_cons]
    · rename_i hle
      simp only [List.filter_cons, ih hx.2]
      by_cases h1 : x.enterCode = c
      · have : e.enterCode ≠ c := by omega
        simp [h1, this]
      · simp [h1]

theorem sortEntries_filter (es : List TaskEntry) (c : Nat) :
    (sortEntries es).filter (·.enterCode = c) = es.filter (·.enterCode = c) := by
  induction es with
  | nil => simp [sortEntries]
  | cons e es ih =>
    simp only [sortEntries]
    rw [insertEntry_filter e _ c (sortEntries_sorted es), ih]
    simp [List.filter_cons]

/-! Sorting positions: the same insertion sort on an arbitrary type with a key. -/

def insertBy {α : Type} (key : α → Nat) (e : α) : List α → List α
  | [] => [e]
  | x :: xs => if key e ≤ key x then e :: x :: xs else x :: insertBy key e xs

def sortBy {α : Type} (key : α → Nat) : List α → List α
  | [] => []
  | e :: es => insertBy key e (sortBy key es)

theorem insertBy_perm {α : Type} (key : α → Nat) (e : α) (es : List α) :
    (insertBy key e es).Perm (e :: es) := by
  induction es with
  | nil => simp [insertBy]
  | cons x xs ih =>
    simp only [insertBy]
    split
    · exact List.Perm.refl _
    · exact (List.Perm.cons x ih).trans (List.Perm.swap e x xs)

theorem sortBy_perm {α : Type} (key : α → Nat) (es : List α) : (sortBy key es).Perm es := by
  induction es with
  | nil => simp [sortBy]
  | cons e es ih => exact (insertBy_perm key e _).trans (List.Perm.cons e ih)

theorem insertEntry_map {α : Type} (g : α → TaskEntry) (e : α) (es : List α) :
    insertEntry (g e) (es.map g) = (insertBy (fun a => (g a).enterCode) e es).map g := by
  induction es with
  | nil => simp [insertEntry, insertBy]
  | cons x xs ih =>
    simp only [List.map_cons, insertEntry, insertBy]
    split
    · simp
    · simp [ih]

theorem sortEntries_map {α : Type} (g : α → TaskEntry) (es : List α) :
    sortEntries (es.map g) = (sortBy (fun a => (g a).enterCode) es).map g := by
  induction es with
  | nil => simp [sortEntries, sortBy]
  | cons e es ih => simp only [List.map_cons, sortEntries, sortBy, ih, insertEntry_map]

/-- Sorting an increasing list of positions gives the lexicographic order of (key, position). -/
theorem insertBy_lex (key : Nat → Nat) (e : Nat) (es : List Nat)
    (hlt : ∀ x ∈ es, e < x)
    (h : es.Pairwise (fun a b => key a < key b ∨ (key a = key b ∧ a < b))) :
    (insertBy key e es).Pairwise (fun a b => key a < key b ∨ (key a = key b ∧ a < b)) := by
  induction es with
  | nil => simp [insertBy]
  | cons x xs ih =>
    have hx := List.pairwise_cons.1 h
    simp only [insertBy]
    split
    · rename_i hle
      refine List.pairwise_cons.2 ⟨?_, h⟩
      intro a ha
      have h1 := hlt a ha
      rcases List.mem_cons.1 ha with h2 | h2
      · subst h2; omega
      · have := hx.1 a h2; omega
    · rename_i hle
      refine List.pairwise_cons.2 ⟨?_, ih (fun y hy => hlt y (by simp [hy])) hx.2⟩
      intro a ha
      rcases List.mem_cons.1 ((insertBy_perm key e xs).mem_iff.1 ha) with h1 | h1
      · subst h1; omega
      · exact hx.1 a h1

theorem sortBy_lex (key : Nat → Nat) (es : List Nat) (h : es.Pairwise (· < ·)) :
    (sortBy key es).Pairwise (fun a b => key a < key b ∨ (key a = key b ∧ a < b)) := by
  induction es with
  | nil => simp [sortBy]
  | cons e es ih =>
    have hx := List.pairwise_cons.1 h
    refine insertBy_lex key e _ ?_ (ih hx.2)
    intro x hxm
    exact hx.1 x ((sortBy_perm key es).mem_iff.1 hxm)

theorem sortBy_congr {α : Type} (k1 k2 : α → Nat) (es : List α) (h : ∀ a ∈ es, k1 a = k2 a) :
    sortBy k1 es = sortBy k2 es := by
  have ins : ∀ (e : α) (l : List α), k1 e = k2 e → (∀ a ∈ l, k1 a = k2 a) → insertBy k1 e l = insertBy k2 e l := by
    intro e l he hl
    induction l with
    | nil => rfl
    | cons x xs ih =>
      simp only [insertBy, he, hl x (by simp)]
      rw [ih (fun a ha => hl a (by simp [ha]))]
  induction es with
  | nil => rfl
  | cons e es ih =>
    simp only [sortBy]
    rw [ih (fun a ha => h a (by simp [ha]))]
    apply ins _ _ (h e (by simp))
    intro a ha
    exact h a (by simp [(sortBy_perm k2 es).mem_iff.1 ha])

end Flow
