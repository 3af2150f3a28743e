import Verif.Spec.Spans
import Verif.Proofs.Loops

/-
Spans: the contexts of task instances, independently of the engine.
-/

namespace Flow
open Spec

namespace SpanSt

/-- The context of a task instance: none, a span that is not finished, or one that is. -/
inductive Ctx
  | none
  | opened
  | closed
deriving DecidableEq

/-- What an operation does to the context of task instance `o` of flow instance `i`. -/
def scan1 (i o : Nat) (c : Ctx) : SpanOp → Ctx
  | .startTask j p => if j = i ∧ p = o then .opened else c
  | .endTask j p _ => if j = i ∧ p = o ∧ c = .opened then .closed else c
  | .dropTask j p => if j = i ∧ p = o then .none else c
  | _ => c

def scan (i o : Nat) (c : Ctx) (ops : List SpanOp) : Ctx := ops.foldl (scan1 i o) c

/-- The operation does not finish a span for the second time. -/
def Single1 (i o : Nat) (c : Ctx) : SpanOp → Prop
  | .endTask j p _ => j = i → p = o → c ≠ .closed
  | _ => True

/-- The operation does not lose a span that is not finished. -/
def Safe1 (i o : Nat) (c : Ctx) : SpanOp → Prop
  | .startTask j p => j = i → p = o → c ≠ .opened
  | .dropTask j p => j = i → p = o → c ≠ .opened
  | _ => True

def Single (i o : Nat) : Ctx → List SpanOp → Prop
  | _, [] => True
  | c, op :: ops => Single1 i o c op ∧ Single i o (scan1 i o c op) ops

def Safe (i o : Nat) : Ctx → List SpanOp → Prop
  | _, [] => True
  | c, op :: ops => Safe1 i o c op ∧ Safe i o (scan1 i o c op) ops

theorem scan_append (i o : Nat) (c : Ctx) (a b : List SpanOp) : scan i o c (a ++ b) = scan i o (scan i o c a) b := by
  unfold scan; rw [List.foldl_append]

theorem single_append {i o : Nat} : ∀ {a b : List SpanOp} {c : Ctx}, Single i o c (a ++ b) ↔ Single i o c a ∧ Single i o (scan i o c a) b
  | [], b, c => by simp [Single, scan]
  | x :: a, b, c => by
    show _ ∧ Single i o _ (a ++ b) ↔ _
    rw [single_append (a := a)]
    exact and_assoc.symm

theorem safe_append {i o : Nat} : ∀ {a b : List SpanOp} {c : Ctx}, Safe i o c (a ++ b) ↔ Safe i o c a ∧ Safe i o (scan i o c a) b
  | [], b, c => by simp [Safe, scan]
  | x :: a, b, c => by
    show _ ∧ Safe i o _ (a ++ b) ↔ _
    rw [safe_append (a := a)]
    exact and_assoc.symm

/-- The state of the context of a task instance. -/
def state (st : SpanSt) (i o : Nat) : Ctx :=
  match st.task i o with
  | none => .none
  | some s => if (finishes st.log s).isEmpty then .opened else .closed

/-- Spans are numbered and belong to one owner each; contexts hold the spans of their owners, those of task instances the
newest. -/
structure WF (st : SpanSt) : Prop where
  lt : ∀ k w p, SpanEv.started k w p ∈ st.log → k < st.next
  fin : ∀ k err, SpanEv.finished k err ∈ st.log → k < st.next
  uniq : ∀ k w w' p p', SpanEv.started k w p ∈ st.log → SpanEv.started k w' p' ∈ st.log → w = w'
  task : ∀ i o s, st.task i o = some s → Newest st.log s i o
  flow : ∀ j s, st.flow j = some s → OwnedBy st.log s (.flow j)

theorem finishes_nil {log : List SpanEv} {n : Nat} (h : ∀ k err, SpanEv.finished k err ∈ log → k < n) : ∀ s, n ≤ s → finishes log s = [] := by
  intro s hs
  induction log with
  | nil => rfl
  | cons ev log ih =>
    have h1 := ih (fun k err hk => h k err (List.mem_cons_of_mem _ hk))
    cases ev with
    | started k w p => exact h1
    | finished k err =>
      have := h k err List.mem_cons_self
      show (if k = s then _ else _) = _
      rw [if_neg (by omega)]; exact h1

theorem owned_started {log : List SpanEv} {k n : Nat} {w v : SpanOwner} {p : Option Nat} :
    OwnedBy (.started n v p :: log) k w ↔ (k = n ∧ w = v) ∨ OwnedBy log k w := by
  constructor
  · rintro ⟨q, hq⟩
    rcases List.mem_cons.1 hq with h | h
    · cases h; exact Or.inl ⟨rfl, rfl⟩
    · exact Or.inr ⟨q, h⟩
  · rintro (⟨rfl, rfl⟩ | ⟨q, hq⟩)
    · exact ⟨p, List.mem_cons_self⟩
    · exact ⟨q, List.mem_cons_of_mem _ hq⟩

theorem owned_finished {log : List SpanEv} {k n : Nat} {w : SpanOwner} {err : Option Err} :
    OwnedBy (.finished n err :: log) k w ↔ OwnedBy log k w := by
  constructor
  · rintro ⟨q, hq⟩
    rcases List.mem_cons.1 hq with h | h
    · cases h
    · exact ⟨q, h⟩
  · rintro ⟨q, hq⟩
    exact ⟨q, List.mem_cons_of_mem _ hq⟩

theorem WF.owned_lt {st : SpanSt} (h : st.WF) {k : Nat} {w : SpanOwner} (ho : OwnedBy st.log k w) : k < st.next := by
  obtain ⟨p, hp⟩ := ho; exact h.lt _ _ _ hp

theorem WF.owner {st : SpanSt} (h : st.WF) {k : Nat} {w v : SpanOwner} (h1 : OwnedBy st.log k w) (h2 : OwnedBy st.log k v) : w = v := by
  obtain ⟨p, hp⟩ := h1
  obtain ⟨q, hq⟩ := h2
  exact h.uniq _ _ _ _ _ hp hq

theorem WF.finish {st : SpanSt} (h : st.WF) {s : Nat} (hs : s < st.next) (err : Option Err) : WF { st with log := .finished s err :: st.log } := by
  refine ⟨fun k w p hk => ?_, fun k er hk => ?_, fun k w w' p p' h1 h2 => ?_, fun i o k hk => ?_, fun j k hk => ?_⟩
  · rcases List.mem_cons.1 hk with hx | hx
    · cases hx
    · exact h.lt _ _ _ hx
  · rcases List.mem_cons.1 hk with hx | hx
    · cases hx; exact hs
    · exact h.fin _ _ hx
  · rcases List.mem_cons.1 h1 with hx | hx
    · cases hx
    · rcases List.mem_cons.1 h2 with hy | hy
      · cases hy
      · exact h.uniq _ _ _ _ _ hx hy
  · obtain ⟨h1, h2⟩ := h.task i o k hk
    exact ⟨owned_finished.2 h1, fun m hm => h2 m (owned_finished.1 hm)⟩
  · exact owned_finished.2 (h.flow j k hk)

theorem WF.start {st : SpanSt} (h : st.WF) (w : SpanOwner) (p : Option Nat) {tk : Nat → Nat → Option Nat} {fl : Nat → Option Nat}
    (ht : ∀ i o s, tk i o = some s → (s = st.next ∧ w = .task i o) ∨ (st.task i o = some s ∧ w ≠ .task i o))
    (hf : ∀ j s, fl j = some s → (s = st.next ∧ w = .flow j) ∨ st.flow j = some s) :
    WF { log := .started st.next w p :: st.log, task := tk, flow := fl, next := st.next + 1 } := by
  refine ⟨fun k v q hk => ?_, fun k er hk => ?_, fun k v v' q q' h1 h2 => ?_, fun i o k hk => ?_, fun j k hk => ?_⟩
  · show k < st.next + 1
    rcases List.mem_cons.1 hk with hx | hx
    · cases hx; omega
    · have := h.lt _ _ _ hx; omega
  · show k < st.next + 1
    rcases List.mem_cons.1 hk with hx | hx
    · cases hx
    · have := h.fin _ _ hx; omega
  · rcases List.mem_cons.1 h1 with hx | hx
    · rcases List.mem_cons.1 h2 with hy | hy
      · cases hx; cases hy; rfl
      · cases hx; exact absurd (h.lt _ _ _ hy) (Nat.lt_irrefl _)
    · rcases List.mem_cons.1 h2 with hy | hy
      · cases hy; exact absurd (h.lt _ _ _ hx) (Nat.lt_irrefl _)
      · exact h.uniq _ _ _ _ _ hx hy
  · rcases ht i o k hk with ⟨rfl, rfl⟩ | ⟨h1, h2⟩
    · refine ⟨owned_started.2 (Or.inl ⟨rfl, rfl⟩), fun m hm => ?_⟩
      rcases owned_started.1 hm with ⟨rfl, _⟩ | hx
      · exact Nat.le_refl _
      · exact Nat.le_of_lt (h.owned_lt hx)
    · obtain ⟨h3, h4⟩ := h.task i o k h1
      refine ⟨owned_started.2 (Or.inr h3), fun m hm => ?_⟩
      rcases owned_started.1 hm with ⟨_, hx⟩ | hx
      · exact absurd hx.symm h2
      · exact h4 m hx
  · rcases hf j k hk with ⟨rfl, rfl⟩ | h1
    · exact owned_started.2 (Or.inl ⟨rfl, rfl⟩)
    · exact owned_started.2 (Or.inr (h.flow j k h1))

theorem WF.apply {st : SpanSt} (h : st.WF) (op : SpanOp) : (st.apply op).WF := by
  cases op with
  | startTask i o =>
    refine h.start _ _ (fun j p s hs => ?_) (fun j s hs => Or.inr hs)
    unfold setTask at hs
    split at hs
    · rename_i hc; cases hs; exact Or.inl ⟨rfl, by rw [hc.1, hc.2]⟩
    · rename_i hc
      refine Or.inr ⟨hs, fun hx => hc ?_⟩
      cases hx; exact ⟨rfl, rfl⟩
  | endTask i o err =>
    unfold SpanSt.apply
    dsimp only
    split
    · exact h
    · rename_i s hs
      exact h.finish (h.owned_lt (h.task _ _ _ hs).1) err
  | dropTask i o =>
    refine ⟨h.lt, h.fin, h.uniq, fun j p s hs => ?_, h.flow⟩
    have hs' : setTask st.task i o none j p = some s := hs
    unfold setTask at hs'
    split at hs'
    · cases hs'
    · exact h.task _ _ _ hs'
  | startFlow j i o =>
    refine h.start _ _ (fun k p s hs => Or.inr ⟨hs, (nomatch ·)⟩) (fun k s hs => ?_)
    unfold setFlow at hs
    split at hs
    · rename_i hc; cases hs; exact Or.inl ⟨rfl, by rw [hc]⟩
    · exact Or.inr hs
  | endFlow j err =>
    unfold SpanSt.apply
    dsimp only
    split
    · exact h
    · rename_i s hs
      exact h.finish (h.owned_lt (h.flow _ _ hs)) err

theorem finishes_finished {log : List SpanEv} {k s : Nat} {err : Option Err} :
    finishes (.finished k err :: log) s = if k = s then err :: finishes log s else finishes log s := rfl

theorem finishes_started {log : List SpanEv} {k s : Nat} {w : SpanOwner} {p : Option Nat} :
    finishes (.started k w p :: log) s = finishes log s := rfl

/-- What an operation does to the spans of a task instance. -/
structure Moves (i o : Nat) (c : Ctx) (op : SpanOp) (st st' : SpanSt) : Prop where
  state : st'.state i o = scan1 i o c op
  once : Single1 i o c op → (∀ k, OwnedBy st.log k (.task i o) → (finishes st.log k).length ≤ 1) →
    ∀ k, OwnedBy st'.log k (.task i o) → (finishes st'.log k).length ≤ 1
  left : Safe1 i o c op → (∀ k, OwnedBy st.log k (.task i o) → finishes st.log k = [] → st.task i o = some k) →
    ∀ k, OwnedBy st'.log k (.task i o) → finishes st'.log k = [] → st'.task i o = some k

theorem state_opened {st : SpanSt} {i o : Nat} : st.state i o = .opened ↔ ∃ s, st.task i o = some s ∧ finishes st.log s = [] := by
  unfold state
  cases hs : st.task i o with
  | none => simp
  | some s => simp

theorem state_none {st : SpanSt} {i o : Nat} : st.state i o = .none ↔ st.task i o = none := by
  unfold state
  cases hs : st.task i o with
  | none => simp
  | some s => dsimp only; split <;> simp

theorem state_closed {st : SpanSt} {i o : Nat} : st.state i o = .closed ↔ ∃ s, st.task i o = some s ∧ finishes st.log s ≠ [] := by
  unfold state
  cases hs : st.task i o with
  | none => simp
  | some s => simp

theorem state_congr {st st' : SpanSt} {i o : Nat} (h1 : st'.task i o = st.task i o)
    (h2 : ∀ s, st.task i o = some s → finishes st'.log s = finishes st.log s) : st'.state i o = st.state i o := by
  unfold state
  rw [h1]
  cases hs : st.task i o with
  | none => rfl
  | some s => dsimp only; rw [h2 s hs]

/-- Finishing a span of another owner. -/
theorem WF.other {st : SpanSt} (h : st.WF) {i o s : Nat} {w : SpanOwner} (hw : OwnedBy st.log s w) (hne : w ≠ .task i o) (err : Option Err)
    (op : SpanOp) (hop : scan1 i o (st.state i o) op = st.state i o) :
    Moves i o (st.state i o) op st { st with log := .finished s err :: st.log } := by
  have key : ∀ k, OwnedBy st.log k (.task i o) → s ≠ k := fun k hk hc => hne (h.owner (hc ▸ hw) hk)
  refine ⟨?_, fun _ h1 k hk => ?_, fun _ h1 k hk hf => ?_⟩
  · rw [hop]
    refine state_congr rfl (fun k hk => ?_)
    show finishes (.finished s err :: st.log) k = _
    rw [finishes_finished, if_neg (key k (h.task _ _ _ hk).1)]
  · have hk' := owned_finished.1 hk
    show (finishes (.finished s err :: st.log) k).length ≤ 1
    rw [finishes_finished, if_neg (key k hk')]
    exact h1 k hk'
  · have hk' := owned_finished.1 hk
    have hf' : finishes (.finished s err :: st.log) k = [] := hf
    rw [finishes_finished, if_neg (key k hk')] at hf'
    exact h1 k hk' hf'

theorem WF.moves {st : SpanSt} (h : st.WF) (i o : Nat) (op : SpanOp) : Moves i o (st.state i o) op st (st.apply op) := by
  cases op with
  | startTask j p =>
    by_cases hc : j = i ∧ p = o
    · obtain ⟨rfl, rfl⟩ := hc
      have hnew : finishes st.log st.next = [] := finishes_nil h.fin _ (Nat.le_refl _)
      have ht : (st.apply (.startTask j p)).task j p = some st.next := by
        show setTask st.task j p _ j p = _
        unfold setTask; rw [if_pos ⟨rfl, rfl⟩]
      refine ⟨?_, fun _ h1 k hk => ?_, fun hs h1 k hk hf => ?_⟩
      · rw [state_opened.2 ⟨_, ht, hnew⟩]
        unfold scan1; simp
      · show (finishes st.log k).length ≤ 1
        rcases owned_started.1 hk with ⟨rfl, _⟩ | hk
        · rw [hnew]; simp
        · exact h1 k hk
      · rw [ht]
        rcases owned_started.1 hk with ⟨rfl, _⟩ | hk
        · rfl
        · exact absurd (state_opened.2 ⟨k, h1 k hk hf, hf⟩) (hs rfl rfl)
    · have ht : (st.apply (.startTask j p)).task i o = st.task i o := by
        show setTask st.task j p _ i o = _
        unfold setTask; rw [if_neg (fun hx => hc ⟨hx.1.symm, hx.2.symm⟩)]
      have hk' : ∀ k, OwnedBy (st.apply (.startTask j p)).log k (.task i o) → OwnedBy st.log k (.task i o) := by
        intro k hk
        rcases owned_started.1 hk with ⟨_, hx⟩ | hk
        · cases hx; exact absurd ⟨rfl, rfl⟩ hc
        · exact hk
      refine ⟨?_, fun _ h1 k hk => h1 k (hk' k hk), fun _ h1 k hk hf => ht.trans (h1 k (hk' k hk) hf)⟩
      rw [state_congr ht (fun _ _ => rfl)]
      unfold scan1; dsimp only; rw [if_neg hc]
  | endTask j p err =>
    unfold SpanSt.apply
    dsimp only
    cases hs : st.task j p with
    | none =>
      dsimp only
      refine ⟨?_, fun _ h1 => h1, fun _ h1 => h1⟩
      unfold scan1
      dsimp only
      split
      · rename_i hc
        obtain ⟨rfl, rfl, hc⟩ := hc
        rw [state_none.2 hs] at hc; cases hc
      · rfl
    | some s =>
      dsimp only
      by_cases hc : j = i ∧ p = o
      · obtain ⟨rfl, rfl⟩ := hc
        refine ⟨?_, fun hx h1 k hk => ?_, fun _ h1 k hk hf => ?_⟩
        · have h3 : state { st with log := .finished s err :: st.log } j p = .closed := by
            refine state_closed.2 ⟨s, hs, ?_⟩
            show finishes (.finished s err :: st.log) s ≠ []
            rw [finishes_finished, if_pos rfl]; simp
          rw [h3]
          unfold scan1
          dsimp only
          split
          · rfl
          · rename_i hn
            cases hst : st.state j p with
            | none => rw [state_none.1 hst] at hs; cases hs
            | opened => exact absurd ⟨rfl, rfl, hst⟩ hn
            | closed => rfl
        · have hk' := owned_finished.1 hk
          show (finishes (.finished s err :: st.log) k).length ≤ 1
          rw [finishes_finished]
          split
          · rename_i hks; subst hks
            have hx : st.state j p ≠ .closed := hx rfl rfl
            have : finishes st.log s = [] := by
              cases hf : finishes st.log s with
              | nil => rfl
              | cons a l => exact absurd (state_closed.2 ⟨s, hs, by rw [hf]; simp⟩) hx
            rw [this]; simp
          · exact h1 k hk'
        · have hk' := owned_finished.1 hk
          have hf' : finishes (.finished s err :: st.log) k = [] := hf
          rw [finishes_finished] at hf'
          split at hf'
          · cases hf'
          · exact h1 k hk' hf'
      · refine h.other (h.task _ _ _ hs).1 (fun hx => hc ?_) err _ ?_
        · cases hx; exact ⟨rfl, rfl⟩
        · unfold scan1; dsimp only; rw [if_neg (fun hx => hc ⟨hx.1, hx.2.1⟩)]
  | dropTask j p =>
    by_cases hc : j = i ∧ p = o
    · obtain ⟨rfl, rfl⟩ := hc
      have ht : (st.apply (.dropTask j p)).task j p = none := by
        show setTask st.task j p _ j p = _
        unfold setTask; rw [if_pos ⟨rfl, rfl⟩]
      refine ⟨?_, fun _ h1 => h1, fun hs h1 k hk hf => ?_⟩
      · rw [state_none.2 ht]
        unfold scan1; simp
      · exact absurd (state_opened.2 ⟨k, h1 k hk hf, hf⟩) (hs rfl rfl)
    · have ht : (st.apply (.dropTask j p)).task i o = st.task i o := by
        show setTask st.task j p _ i o = _
        unfold setTask; rw [if_neg (fun hx => hc ⟨hx.1.symm, hx.2.symm⟩)]
      refine ⟨?_, fun _ h1 => h1, fun _ h1 k hk hf => ht.trans (h1 k hk hf)⟩
      rw [state_congr ht (fun _ _ => rfl)]
      unfold scan1; dsimp only; rw [if_neg hc]
  | startFlow j a b =>
    have hk' : ∀ k, OwnedBy (st.apply (.startFlow j a b)).log k (.task i o) → OwnedBy st.log k (.task i o) := by
      intro k hk
      rcases owned_started.1 hk with ⟨_, hx⟩ | hk
      · cases hx
      · exact hk
    exact ⟨state_congr rfl (fun _ _ => rfl), fun _ h1 k hk => h1 k (hk' k hk), fun _ h1 k hk hf => h1 k (hk' k hk) hf⟩
  | endFlow j err =>
    unfold SpanSt.apply
    dsimp only
    cases hs : st.flow j with
    | none => exact ⟨rfl, fun _ h1 => h1, fun _ h1 => h1⟩
    | some s => exact h.other (h.flow _ _ hs) (nomatch ·) err _ rfl

theorem applyAll_cons (st : SpanSt) (op : SpanOp) (ops : List SpanOp) : st.applyAll (op :: ops) = (st.apply op).applyAll ops := rfl

theorem applyAll_append (st : SpanSt) (a b : List SpanOp) : st.applyAll (a ++ b) = (st.applyAll a).applyAll b := by
  unfold applyAll; rw [List.foldl_append]

theorem WF.applyAll {st : SpanSt} (h : st.WF) (ops : List SpanOp) : (st.applyAll ops).WF := by
  induction ops generalizing st with
  | nil => exact h
  | cons op ops ih => exact ih (h.apply op)

/-- What a list of operations does to the spans of a task instance. -/
theorem WF.all {st : SpanSt} (h : st.WF) (i o : Nat) (ops : List SpanOp) :
    (st.applyAll ops).state i o = scan i o (st.state i o) ops ∧
    (Single i o (st.state i o) ops → (∀ k, OwnedBy st.log k (.task i o) → (finishes st.log k).length ≤ 1) →
      ∀ k, OwnedBy (st.applyAll ops).log k (.task i o) → (finishes (st.applyAll ops).log k).length ≤ 1) ∧
    (Safe i o (st.state i o) ops → (∀ k, OwnedBy st.log k (.task i o) → finishes st.log k = [] → st.task i o = some k) →
      ∀ k, OwnedBy (st.applyAll ops).log k (.task i o) → finishes (st.applyAll ops).log k = [] → (st.applyAll ops).task i o = some k) := by
  induction ops generalizing st with
  | nil => exact ⟨rfl, fun _ h1 => h1, fun _ h1 => h1⟩
  | cons op ops ih =>
    have m := h.moves i o op
    obtain ⟨a1, a2, a3⟩ := ih (h.apply op)
    rw [m.state] at a1 a2 a3
    exact ⟨a1, fun hs h1 => a2 hs.2 (m.once hs.1 h1), fun hs h1 => a3 hs.2 (m.left hs.1 h1)⟩

end SpanSt

end Flow
