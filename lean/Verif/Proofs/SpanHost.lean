import Verif.Proofs.SpanFlow

/-
Spans of flow instances: their parents and their ends.
-/

namespace Flow
open Spec

namespace SpanSt

/-- Flow instances have one span each; parents are as expected. `n` flow instances exist; `host` tells which task instance called
a flow instance. -/
structure Tree (st : SpanSt) (n : Nat) (host : Nat → Option (Nat × Nat)) : Prop where
  has : ∀ j, j < n ↔ ∃ s, st.flow j = some s
  only : ∀ j s, OwnedBy st.log s (.flow j) → st.flow j = some s
  task : ∀ k i o p, SpanEv.started k (.task i o) p ∈ st.log → ∃ s, p = some s ∧ OwnedBy st.log s (.flow i)
  flow : ∀ post pre k j p, st.log = post ++ .started k (.flow j) p :: pre → j ≠ 0 →
    ∃ q a b, host j = some (a, b) ∧ p = some q ∧ Newest pre q a b ∧ finishes pre q = []

/-- The ends of the span of a flow instance, newest first. -/
def fins (st : SpanSt) (j : Nat) : List (Option Err) :=
  match st.flow j with
  | none => []
  | some s => finishes st.log s

/-- The ends among the operations, oldest first. -/
def endsOf (j : Nat) : List SpanOp → List (Option Err)
  | [] => []
  | .endFlow k err :: ops => if k = j then err :: endsOf j ops else endsOf j ops
  | _ :: ops => endsOf j ops

variable {st : SpanSt} {n i o : Nat} {host : Nat → Option (Nat × Nat)}

theorem split_cons {α : Type} {x y : α} {l post pre : List α} (h : x :: l = post ++ y :: pre) :
    (post = [] ∧ x = y ∧ l = pre) ∨ ∃ post', post = x :: post' ∧ l = post' ++ y :: pre := by
  cases post with
  | nil => rw [List.nil_append] at h; cases h; exact Or.inl ⟨rfl, rfl, rfl⟩
  | cons z post => rw [List.cons_append] at h; cases h; exact Or.inr ⟨post, rfl, rfl⟩

theorem OwnedBy.mono {log : List SpanEv} {ev : SpanEv} {s : Nat} {w : SpanOwner} (h : OwnedBy log s w) : OwnedBy (ev :: log) s w := by
  obtain ⟨p, hp⟩ := h; exact ⟨p, List.mem_cons_of_mem _ hp⟩

/-- Finishing a span. -/
theorem Tree.finish (h : Tree st n host) (s : Nat) (err : Option Err) : Tree { st with log := .finished s err :: st.log } n host := by
  refine ⟨h.has, fun j k hk => h.only j k (owned_finished.1 hk), fun k i o p hk => ?_, fun post pre k j p heq hj => ?_⟩
  · rcases List.mem_cons.1 hk with hx | hx
    · cases hx
    · obtain ⟨q, h1, h2⟩ := h.task k i o p hx
      exact ⟨q, h1, OwnedBy.mono h2⟩
  · rcases split_cons heq with ⟨_, hx, _⟩ | ⟨post', _, hx⟩
    · cases hx
    · exact h.flow post' pre k j p hx hj

theorem Tree.apply (h : Tree st n host) (w : st.WF) {op : SpanOp} (hop : Fits i o (st.state i o) n op)
    (hhost : host n = some (i, o) ∨ ∀ j a b, op ≠ .startFlow j a b) (hn : 0 < n) : Tree (st.apply op) (grow n op) host := by
  cases op with
  | startTask a b =>
    obtain ⟨rfl, rfl, hi⟩ := hop
    obtain ⟨s, hs⟩ := (h.has a).1 hi
    refine ⟨h.has, fun j k hk => ?_, fun k i o p hk => ?_, fun post pre k j p heq hj => ?_⟩
    · rcases owned_started.1 hk with ⟨_, hx⟩ | hx
      · cases hx
      · exact h.only j k hx
    · rcases List.mem_cons.1 hk with hx | hx
      · cases hx; exact ⟨s, hs, OwnedBy.mono (w.flow _ _ hs)⟩
      · obtain ⟨q, h1, h2⟩ := h.task k i o p hx
        exact ⟨q, h1, OwnedBy.mono h2⟩
    · rcases split_cons heq with ⟨_, hx, _⟩ | ⟨post', _, hx⟩
      · cases hx
      · exact h.flow post' pre k j p hx hj
  | endTask a b err =>
    unfold SpanSt.apply
    dsimp only
    split
    · exact h
    · exact h.finish _ _
  | dropTask a b => exact ⟨h.has, h.only, h.task, h.flow⟩
  | startFlow j a b =>
    obtain ⟨rfl, rfl, rfl, hc⟩ := hop
    obtain ⟨q, hq, hf⟩ := state_opened.1 hc
    have hhost : host j = some (a, b) := by
      rcases hhost with hx | hx
      · exact hx
      · exact absurd rfl (hx j a b)
    refine ⟨fun k => ?_, fun k s hk => ?_, fun k i o p hk => ?_, fun post pre k j' p heq hj => ?_⟩
    · show k < j + 1 ↔ ∃ s, setFlow st.flow j (some st.next) k = some s
      unfold setFlow
      split
      · rename_i hk; exact ⟨fun _ => ⟨_, rfl⟩, fun _ => by omega⟩
      · rename_i hk
        rw [← h.has k]
        omega
    · show setFlow st.flow j (some st.next) k = some s
      unfold setFlow
      rcases owned_started.1 hk with ⟨rfl, hx⟩ | hx
      · cases hx; rw [if_pos rfl]
      · have := h.only k s hx
        split
        · rename_i hkj
          subst hkj
          exact absurd ((h.has k).2 ⟨s, this⟩) (Nat.lt_irrefl _)
        · exact this
    · rcases List.mem_cons.1 hk with hx | hx
      · cases hx
      · obtain ⟨s, h1, h2⟩ := h.task k i o p hx
        exact ⟨s, h1, OwnedBy.mono h2⟩
    · rcases split_cons heq with ⟨_, hx, hy⟩ | ⟨post', _, hx⟩
      · cases hx
        subst hy
        exact ⟨q, a, b, hhost, hq, w.task _ _ _ hq, hf⟩
      · exact h.flow post' pre k j' p hx hj
  | endFlow j err =>
    unfold SpanSt.apply
    dsimp only
    split
    · exact h
    · exact h.finish _ _

theorem fins_apply (h : Tree st n host) (w : st.WF) {op : SpanOp} (hop : Fits i o (st.state i o) n op) (j : Nat) :
    (st.apply op).fins j = (endsOf j [op]).reverse ++ st.fins j := by
  have other : ∀ s v err, OwnedBy st.log s v → v ≠ .flow j → fins { st with log := .finished s err :: st.log } j = st.fins j := by
    intro s v err hs hv
    unfold fins
    dsimp only
    cases hj : st.flow j with
    | none => rfl
    | some k =>
      dsimp only
      rw [finishes_finished, if_neg (fun (hx : s = k) => hv (w.owner hs (hx ▸ w.flow _ _ hj)))]
  cases op with
  | startTask a b => rfl
  | endTask a b err =>
    unfold SpanSt.apply
    dsimp only
    split
    · rfl
    · rename_i s hs
      exact other s _ err (w.task _ _ _ hs).1 (nomatch ·)
  | dropTask a b => rfl
  | startFlow k a b =>
    obtain ⟨rfl, rfl, rfl, hc⟩ := hop
    show fins (SpanSt.apply st (.startFlow k a b)) j = st.fins j
    unfold fins SpanSt.apply setFlow
    dsimp only
    by_cases hk : j = k
    · subst hk
      rw [if_pos rfl]
      have : st.flow j = none := by
        cases hx : st.flow j with
        | none => rfl
        | some s => exact absurd ((h.has j).2 ⟨s, hx⟩) (Nat.lt_irrefl _)
      rw [this]
      dsimp only
      rw [finishes_started]
      exact finishes_nil w.fin _ (Nat.le_refl _)
    · rw [if_neg hk]; rfl
  | endFlow k err =>
    unfold SpanSt.apply
    dsimp only
    cases hk : st.flow k with
    | none =>
      obtain ⟨s, hs⟩ := (h.has k).1 hop
      rw [hk] at hs; cases hs
    | some s =>
      dsimp only
      show _ = (if k = j then err :: [] else []).reverse ++ _
      by_cases hkj : k = j
      · subst hkj
        rw [if_pos rfl]
        unfold fins
        dsimp only
        rw [hk]
        dsimp only
        rw [finishes_finished, if_pos rfl]
        rfl
      · rw [if_neg hkj]
        refine other s _ err (w.flow _ _ hk) (fun hx => hkj ?_)
        cases hx; rfl

theorem endsOf_cons (j : Nat) (op : SpanOp) (ops : List SpanOp) : endsOf j (op :: ops) = endsOf j [op] ++ endsOf j ops := by
  cases op <;> try rfl
  show (if _ then _ else _) = (if _ then _ else _) ++ _
  split <;> rfl

theorem endsOf_append (j : Nat) (a b : List SpanOp) : endsOf j (a ++ b) = endsOf j a ++ endsOf j b := by
  induction a with
  | nil => rfl
  | cons op a ih => rw [List.cons_append, endsOf_cons, ih, endsOf_cons j op a, List.append_assoc]

/-- A list of operations. -/
theorem Tree.all {ops : List SpanOp} : ∀ {st : SpanSt} {n n' : Nat}, Tree st n host → st.WF → 0 < n → Nest i o (st.state i o) n ops n' →
    (∀ j, n ≤ j → j < n' → host j = some (i, o)) →
    Tree (st.applyAll ops) n' host ∧ ∀ j, (st.applyAll ops).fins j = (endsOf j ops).reverse ++ st.fins j := by
  induction ops with
  | nil => intro st n n' h w hn hnest hh; cases hnest; exact ⟨h, fun j => rfl⟩
  | cons op ops ih =>
    intro st n n' h w hn hnest hh
    have hgrow : ∀ (ops : List SpanOp) (c : Ctx) (a b : Nat), Nest i o c a ops b → a ≤ b := by
      intro ops
      induction ops with
      | nil => intro c a b hx; cases hx; exact Nat.le_refl _
      | cons x xs ih2 =>
        intro c a b hx
        have := ih2 _ _ _ hx.2
        have h2 : a ≤ grow a x := by cases x <;> first | exact Nat.le_refl _ | exact Nat.le_succ _
        exact Nat.le_trans h2 this
    have hle := hgrow _ _ _ _ hnest.2
    have hle1 : n ≤ grow n op := by cases op <;> first | exact Nat.le_refl _ | exact Nat.le_succ _
    have hst : (st.apply op).state i o = scan1 i o (st.state i o) op := (w.moves i o op).state
    have hhost : host n = some (i, o) ∨ ∀ j a b, op ≠ .startFlow j a b := by
      by_cases hx : ∃ j a b, op = .startFlow j a b
      · obtain ⟨j, a, b, rfl⟩ := hx
        exact Or.inl (hh n (Nat.le_refl _) (Nat.lt_of_succ_le hle))
      · exact Or.inr (fun j a b hy => hx ⟨j, a, b, hy⟩)
    obtain ⟨t1, t2⟩ := ih (h.apply w hnest.1 hhost hn) (w.apply op) (Nat.lt_of_lt_of_le hn hle1) (by rw [hst]; exact hnest.2)
      (fun j hj hj' => hh j (Nat.le_trans hle1 hj) hj')
    refine ⟨t1, fun j => ?_⟩
    rw [applyAll_cons, t2 j, fins_apply h w hnest.1 j, endsOf_cons j op ops, List.reverse_append, List.append_assoc]

end SpanSt

namespace Eng

open SpanSt

variable {env : Env} {i o : Nat}

/-- How often a flow instance has changed to a status. -/
def times (e : Eng) (j : Nat) (s : FlowStatus) : Nat :=
  match e.insts[j]? with
  | none => 0
  | some I => I.posted.countP (reports s)

/-- The flow instance has failed or handles an error. -/
def hit (e : Eng) (j : Nat) : Prop := ∃ I, e.insts[j]? = some I ∧ I.defn.eh = none ∧ I.handling = true

/-- What the operations say about the ends of flow instances. -/
structure Ends (e e' : Eng) (ops : List SpanOp) : Prop where
  compl : ∀ j, j ≠ 0 → e'.times j .completed = e.times j .completed + (endsOf j ops).countP (fun x => x.isNone)
  fail : ∀ j, j ≠ 0 → e.times j .failed + (endsOf j ops).countP (fun x => x.isSome) ≤ e'.times j .failed
  first : ∀ j, j ≠ 0 → e'.hit j → e.hit j ∨ 0 < (endsOf j ops).countP (fun x => x.isSome)

namespace Ends

variable {e f g : Eng} {a b : List SpanOp}

theorem trans (h : Ends e f a) (k : Ends f g b) : Ends e g (a ++ b) := by
  refine ⟨fun j hj => ?_, fun j hj => ?_, fun j hj hh => ?_⟩
  · rw [k.compl j hj, h.compl j hj, endsOf_append, List.countP_append]; omega
  · have h1 := h.fail j hj
    have h2 := k.fail j hj
    rw [endsOf_append, List.countP_append]; omega
  · rw [endsOf_append, List.countP_append]
    rcases k.first j hj hh with hx | hx
    · rcases h.first j hj hx with hy | hy
      · exact Or.inl hy
      · right; omega
    · right; omega

theorem then_ (h : Ends e f []) (k : Ends f g b) : Ends e g b := h.trans k

theorem of_insts (h : f.insts = e.insts) : Ends e f [] := by
  have ht : ∀ j s, f.times j s = e.times j s := fun j s => by unfold times; rw [h]
  refine ⟨fun j _ => ht j _, fun j _ => by rw [ht]; exact Nat.le_refl _, fun j _ hh => Or.inl ?_⟩
  obtain ⟨I, h1, h2⟩ := hh
  exact ⟨I, by rw [← h]; exact h1, h2⟩

theorem refl (e : Eng) : Ends e e [] := of_insts rfl

/-- The operations on spans of tasks do not matter. -/
theorem task (h : Ends e f a) (i o : Nat) (err : Option Err) : Ends e f (.endTask i o err :: a) := ⟨h.compl, h.fail, h.first⟩

theorem reports_flows {l l' : List Post} (h : l'.filter Post.isFlow = l.filter Post.isFlow) (s : FlowStatus) : l'.countP (reports s) = l.countP (reports s) := by
  have key : ∀ l : List Post, l.countP (reports s) = (l.filter Post.isFlow).countP (reports s) := by
    intro l
    rw [List.countP_filter]
    apply List.countP_congr
    intro x _
    cases x with
    | flow s err => simp [Post.isFlow]
    | task => simp [reports]
  rw [key, h, ← key]

/-- A change of an instance that does not end it. -/
theorem modI (e : Eng) (k : Nat) (F : Inst → Inst) (h : ∀ I, e.insts[k]? = some I → (F I).posted.filter Post.isFlow = I.posted.filter Post.isFlow ∧
    (F I).handling = I.handling ∧ (F I).defn = I.defn) : Ends e (e.modI k F) [] := by
  have ht : ∀ j s, (e.modI k F).times j s = e.times j s := by
    intro j s
    unfold times
    rw [modI_getElem?]
    by_cases hk : k = j
    · subst hk
      rw [if_pos rfl]
      cases hI : e.insts[k]? with
      | none => rfl
      | some I => exact reports_flows (h I hI).1 s
    · rw [if_neg hk]
  refine ⟨fun j _ => ht j _, fun j _ => by rw [ht]; exact Nat.le_refl _, fun j _ hh => Or.inl ?_⟩
  obtain ⟨I, h1, h2, h3⟩ := hh
  rw [modI_getElem?] at h1
  cases hI : e.insts[j]? with
  | none => rw [hI] at h1; split at h1 <;> cases h1
  | some J =>
    rw [hI] at h1
    by_cases hk : k = j
    · subst hk
      rw [if_pos rfl] at h1
      cases h1
      exact ⟨J, hI, (h J hI).2.2 ▸ h2, (h J hI).2.1.symm.trans h3⟩
    · rw [if_neg hk] at h1
      cases h1; exact ⟨_, hI, h2, h3⟩

theorem calm (e : Eng) (k : Nat) (F : Inst → Inst) (h : ∀ I, e.insts[k]? = some I → Calm I (F I)) : Ends e (e.modI k F) [] :=
  modI e k F (fun I hI => ⟨(h I hI).flows, (h I hI).handling, (h I hI).defn⟩)

theorem status_times (e : Eng) {k : Nat} {I : Inst} (hI : e.insts[k]? = some I) (F : Inst → Inst) (s : FlowStatus) (hF : ∃ err, (F I).posted = .flow s err :: I.posted)
    (j : Nat) (x : FlowStatus) : (e.modI k F).times j x = e.times j x + if k = j ∧ s = x then 1 else 0 := by
  obtain ⟨err, hF⟩ := hF
  unfold times
  rw [modI_getElem?]
  by_cases hk : k = j
  · subst hk
    rw [if_pos rfl, hI]
    show (F I).posted.countP _ = _
    rw [hF, List.countP_cons]
    simp [reports]
  · rw [if_neg hk, if_neg (fun hx => hk hx.1)]
    rfl

/-- Completion. -/
theorem completed (e : Eng) (k : Nat) {I : Inst} (hI : e.insts[k]? = some I) :
    Ends e (e.modI k (fun J => J.setFlowStatus .completed)) (spanComplete k) := by
  have ht := status_times e hI (fun J => J.setFlowStatus .completed) .completed ⟨_, rfl⟩
  have hhit : ∀ j, hit (e.modI k (fun J => J.setFlowStatus .completed)) j → e.hit j := by
    rintro j ⟨K, h1, h2, h3⟩
    rw [modI_getElem?] at h1
    cases hJ : e.insts[j]? with
    | none => rw [hJ] at h1; split at h1 <;> cases h1
    | some J =>
      rw [hJ] at h1
      split at h1
      · cases h1; exact ⟨_, hJ, h2, h3⟩
      · cases h1; exact ⟨_, hJ, h2, h3⟩
  have hends : ∀ j, j ≠ 0 → endsOf j (spanComplete k) = if k = j then [none] else [] := by
    intro j hj
    unfold spanComplete
    by_cases hk : k = 0
    · subst hk; rw [if_pos rfl, if_neg (fun hx => hj hx.symm)]; rfl
    · rw [if_neg hk]; rfl
  refine ⟨fun j hj => ?_, fun j hj => ?_, fun j hj hh => Or.inl (hhit j hh)⟩
  · rw [ht, hends j hj]
    by_cases hk : k = j
    · rw [if_pos ⟨hk, rfl⟩, if_pos hk]; rfl
    · rw [if_neg (fun hx => hk hx.1), if_neg hk]; rfl
  · rw [ht, hends j hj]
    by_cases hk : k = j
    · rw [if_pos hk, if_neg (fun hx => nomatch hx.2)]; exact Nat.le_refl _
    · rw [if_neg hk, if_neg (fun hx => hk hx.1)]; exact Nat.le_refl _

/-- Failure: whether the span is finished or not. -/
theorem failed (e : Eng) (k : Nat) {I : Inst} (hI : e.insts[k]? = some I) (F : Inst → Inst) (hF : ∃ err, (F I).posted = .flow .failed err :: I.posted)
    (hd : (F I).defn = I.defn) (ops : List SpanOp) (hops : (ops = [] ∧ (F I).handling = I.handling) ∨ (k ≠ 0 ∧ ∃ err, ops = [.endFlow k (some err)]) ∨ (k = 0 ∧ ops = [])) :
    Ends e (e.modI k F) ops := by
  have ht := status_times e hI F .failed hF
  have hends : ∀ j, j ≠ 0 → k ≠ j → endsOf j ops = [] := by
    intro j hj hk
    rcases hops with ⟨rfl, _⟩ | ⟨_, err, rfl⟩ | ⟨_, rfl⟩
    · rfl
    · show (if k = j then _ else _) = _; rw [if_neg hk]; rfl
    · rfl
  refine ⟨fun j hj => ?_, fun j hj => ?_, fun j hj hh => ?_⟩
  · rw [ht, if_neg (fun hx => nomatch hx.2)]
    by_cases hk : k = j
    · subst hk
      rcases hops with ⟨rfl, _⟩ | ⟨_, err, rfl⟩ | ⟨_, rfl⟩
      · rfl
      · show _ = _ + List.countP _ (if k = k then [some err] else []); rw [if_pos rfl]; rfl
      · rfl
    · rw [hends j hj hk]; rfl
  · rw [ht]
    by_cases hk : k = j
    · subst hk
      rw [if_pos ⟨rfl, rfl⟩]
      rcases hops with ⟨rfl, _⟩ | ⟨_, err, rfl⟩ | ⟨_, rfl⟩
      · exact Nat.le_succ _
      · show _ + List.countP _ (if k = k then [some err] else []) ≤ _; rw [if_pos rfl]; exact Nat.le_refl _
      · exact Nat.le_succ _
    · rw [hends j hj hk, if_neg (fun hx => hk hx.1)]; exact Nat.le_refl _
  · obtain ⟨K, h1, h2, h3⟩ := hh
    rw [modI_getElem?] at h1
    by_cases hk : k = j
    · subst hk
      rw [if_pos rfl, hI] at h1
      cases h1
      rcases hops with ⟨rfl, h4⟩ | ⟨_, err, rfl⟩ | ⟨h4, _⟩
      · exact Or.inl ⟨I, hI, hd ▸ h2, h4.symm.trans h3⟩
      · right
        show 0 < List.countP _ (if k = k then [some err] else [])
        rw [if_pos rfl]; exact Nat.zero_lt_one
      · exact absurd h4 hj
    · rw [if_neg hk] at h1
      exact Or.inl ⟨K, h1, h2, h3⟩

theorem modO (e : Eng) (k p : Nat) (F : Obj → Obj) : Ends e (e.modI k (fun H => H.modO p F)) [] :=
  modI e k _ (fun _ _ => ⟨rfl, rfl, rfl⟩)

theorem complete (e : Eng) (k : Nat) {I : Inst} (hI : e.insts[k]? = some I) : Ends e (e.complete k) (spanComplete k) := by
  have h1 := completed e k hI
  unfold Eng.complete
  rw [hI]
  dsimp only
  split
  · exact h1
  · cases hh : I.host with
    | none =>
      have := h1.trans (g := { e.modI k (fun J => J.setFlowStatus .completed) with subflows := (e.modI k (fun J => J.setFlowStatus .completed)).subflows.del I.subflowId }) (of_insts rfl)
      rwa [List.append_nil] at this
    | some w =>
      obtain ⟨hi, ho⟩ := w
      have h2 := h1.trans (modO _ hi ho (fun x => { x with outputs := I.returnData, returnError := none }))
      have h3 := h2.trans (g := { ((e.modI k (fun J => J.setFlowStatus .completed)).modI hi (fun H => H.modO ho (fun x => { x with outputs := I.returnData, returnError := none }))).schedule hi ho with
        subflows := (((e.modI k (fun J => J.setFlowStatus .completed)).modI hi (fun H => H.modO ho (fun x => { x with outputs := I.returnData, returnError := none }))).schedule hi ho).subflows.del I.subflowId }) (of_insts rfl)
      rwa [List.append_nil, List.append_nil] at h3

theorem failHost (e : Eng) (k : Nat) (err : Err) : Ends e (e.failHost k err) [] := by
  unfold Eng.failHost
  split
  · exact refl e
  · split
    · exact refl e
    · rename_i hi ho _
      exact (modO e hi ho (fun x => { x with returnError := some err })).then_ (of_insts rfl)

theorem appendErrorData (e : Eng) (k : Nat) (t : TaskId) (err : Err) : Ends e (e.appendErrorData k t err) [] :=
  modI e k _ (fun _ _ => ⟨rfl, rfl, rfl⟩)

/-- A change of an instance with an error handler. -/
theorem handled (e : Eng) (k : Nat) {I : Inst} (hI : e.insts[k]? = some I) (heh : I.defn.eh ≠ none) (F : Inst → Inst)
    (h : ∀ I, (F I).posted = I.posted ∧ (F I).defn = I.defn) : Ends e (e.modI k F) [] := by
  have ht : ∀ j s, (e.modI k F).times j s = e.times j s := by
    intro j s
    unfold times
    rw [modI_getElem?]
    by_cases hk : k = j
    · subst hk
      rw [if_pos rfl]
      cases hI : e.insts[k]? with
      | none => rfl
      | some I => show (F I).posted.countP _ = _; rw [(h I).1]
    · rw [if_neg hk]
  refine ⟨fun j _ => ht j _, fun j _ => by rw [ht]; exact Nat.le_refl _, fun j _ hh => Or.inl ?_⟩
  obtain ⟨K, h1, h2, h3⟩ := hh
  rw [modI_getElem?] at h1
  by_cases hk : k = j
  · subst hk
    rw [if_pos rfl, hI] at h1
    cases h1
    rw [(h I).2] at h2
    exact absurd h2 heh
  · rw [if_neg hk] at h1
    exact ⟨K, h1, h2, h3⟩

theorem globalError (e : Eng) (k : Nat) (err : Err) : Ends e (e.globalError k err) (e.spanGlobal k err) := by
  unfold Eng.globalError spanGlobal
  cases hI : e.insts[k]? with
  | none => exact refl e
  | some I =>
    dsimp only
    by_cases hh : I.handling = true
    · rw [if_pos hh, if_pos hh]
      exact failed e k hI _ ⟨_, rfl⟩ rfl [] (Or.inl ⟨rfl, rfl⟩)
    · rw [if_neg hh, if_neg hh]
      cases heh : I.defn.eh with
      | some g =>
        dsimp only
        have h1 : Ends e (e.modI k (fun J => { J with handling := true })) [] := handled e k hI (by rw [heh]; nofun) _ (fun _ => ⟨rfl, rfl⟩)
        exact ((h1.then_ (modI _ 0 (fun J => J.clearTasks) (fun _ _ => ⟨rfl, rfl, rfl⟩))).then_
          (modI _ k (fun J => { J with trace := .ehStart :: J.trace }) (fun _ _ => ⟨rfl, rfl, rfl⟩))).then_ (of_insts rfl)
      | none =>
        dsimp only
        rw [modI_modI]
        by_cases hk : k = 0
        · rw [if_pos hk, if_pos hk]
          have h1 := failed e k hI (fun J => ({ J with handling := true } : Inst).setFlowStatus .failed) ⟨_, rfl⟩ rfl [] (Or.inr (Or.inr ⟨hk, rfl⟩))
          exact h1.then_ (modI _ 0 (fun J => { J with returnError := some err }) (fun _ _ => ⟨rfl, rfl, rfl⟩))
        · rw [if_neg hk, if_neg hk]
          have h1 := failed e k hI (fun J => ({ J with handling := true } : Inst).setFlowStatus .failed) ⟨_, rfl⟩ rfl [.endFlow k (some err)]
            (Or.inr (Or.inl ⟨hk, err, rfl⟩))
          have h2 := h1.trans (failHost _ k err)
          rwa [List.append_nil] at h2

theorem spanGlobal_congr {f : Eng} {k : Nat} {I J : Inst} (h1 : e.insts[k]? = some I) (h2 : f.insts[k]? = some J) (hd : J.defn = I.defn) (hh : J.handling = I.handling)
    (err : Err) : f.spanGlobal k err = e.spanGlobal k err := by
  unfold spanGlobal
  rw [h1, h2]
  dsimp only
  rw [hh, hd]

theorem taskError (e : Eng) (i o : Nat) (t : TaskRef) (err : Err) : Ends e (e.taskError i o t err) (e.spanTaskError i o t err) := by
  unfold Eng.taskError spanTaskError
  refine task ?_ i o (some err)
  cases hI : e.insts[i]? with
  | none => exact refl e
  | some I =>
    dsimp only
    have hc := Calm.errorTask I o t
    cases hx : I.errorTask o t with
    | mk I1 es =>
      rw [hx] at hc
      cases es with
      | some es =>
        dsimp only
        refine then_ (f := e.modI i (fun _ => I1.setValue ("_E." ++ t.id) (errorObj t.id err))) (modI e i _ (fun J hJ => ?_)) (of_insts rfl)
        rw [hI] at hJ; cases hJ
        exact ⟨hc.flows, hc.handling, hc.defn⟩
      | none =>
        dsimp only
        have h1 : Ends e (e.modI i (fun _ => I1)) [] := calm e i _ (fun J hJ => by rw [hI] at hJ; cases hJ; exact hc)
        have hI1 : (e.modI i (fun _ => I1)).insts[i]? = some I1 := modI_self hI _
        split
        · by_cases hi : i = 0
          · rw [if_pos hi, if_pos hi]
            exact (h1.then_ (failed _ i hI1 (fun J => J.setFlowStatus .failed) ⟨_, rfl⟩ rfl [] (Or.inl ⟨rfl, rfl⟩))).then_ (appendErrorData _ _ _ _)
          · rw [if_neg hi, if_neg hi]
            have h2 := (h1.then_ (failed _ i hI1 (fun J => J.setFlowStatus .failed) ⟨_, rfl⟩ rfl [.endFlow i (some err)] (Or.inr (Or.inl ⟨hi, err, rfl⟩)))).trans
              (failHost _ i err)
            rwa [List.append_nil] at h2
        · have hA : ((e.modI i (fun _ => I1)).appendErrorData i t.id err).insts[i]? =
              some ((I1.setValue "_E" (errorObj t.id err)).setValue ("_E." ++ t.id) (errorObj t.id err)) := modI_self hI1 _
          rw [← spanGlobal_congr hI hA hc.defn hc.handling]
          exact (h1.then_ (appendErrorData _ _ _ _)).then_ (globalError _ _ _)

theorem finishTask (e : Eng) (k : Nat) (t : TaskRef) (n : Bool) (es : List TaskEntry) (rest : List Frame) :
    Ends e (e.finishTask k t n es rest) (e.spanFinish k n) := by
  unfold Eng.finishTask spanFinish
  cases hI : e.insts[k]? with
  | none => exact refl e
  | some I =>
    dsimp only
    split
    · have h1 := (complete e k hI).trans (g := { e.complete k with cur := k, stack := .release t :: rest }) (of_insts rfl)
      rwa [List.append_nil] at h1
    · exact of_insts rfl

theorem taskDone (e : Eng) (i o : Nat) (t : TaskRef) : Ends e (e.taskDone env i o t) (spanTaskDone env e i o t) := by
  unfold Eng.taskDone spanTaskDone
  refine task ?_ i o none
  cases hI : e.insts[i]? with
  | none => exact refl e
  | some I =>
    dsimp only
    have hc := Calm.doneTask env.prio (env.link e i) I o t
    cases hx : I.doneTask env.prio (env.link e i) o t with
    | mk I1 es =>
      rw [hx] at hc
      have h1 : Ends e (e.modI i (fun _ => I1)) [] := calm e i _ (fun J hJ => by rw [hI] at hJ; cases hJ; exact hc)
      have hI1 : (e.modI i (fun _ => I1)).insts[i]? = some I1 := modI_self hI _
      cases es with
      | error m =>
        dsimp only
        generalize (Err.plain ("error handling task done transition for task [" ++ e.taskName i t ++ "] in flow [" ++ e.topName ++ "] : " ++ m)) = err
        have hA : ((e.modI i (fun _ => I1)).appendErrorData i t.id err).insts[i]? =
            some ((I1.setValue "_E" (errorObj t.id err)).setValue ("_E." ++ t.id) (errorObj t.id err)) := modI_self hI1 _
        rw [← spanGlobal_congr hI hA hc.defn hc.handling]
        exact (h1.then_ (appendErrorData _ _ _ _)).then_ (globalError _ _ _)
      | ok es => exact h1.then_ (finishTask _ _ _ _ _ _)

theorem taskSkipped (e : Eng) (k p : Nat) (rest : List Frame) : Ends e (e.taskSkipped k p rest) (e.spanSkipped k p) := by
  unfold Eng.taskSkipped spanSkipped
  cases hI : e.insts[k]? with
  | none => exact refl e
  | some I =>
    dsimp only
    cases ho : I.objs[p]? with
    | none => exact of_insts rfl
    | some ob =>
      dsimp only
      have hc := Calm.skipTask I p ob.task
      cases hx : I.skipTask p ob.task with
      | mk I1 es =>
        rw [hx] at hc
        dsimp only
        have h1 : Ends e (e.modI k (fun _ => I1)) [] := calm e k _ (fun J hJ => by rw [hI] at hJ; cases hJ; exact hc)
        exact h1.then_ (finishTask _ _ _ _ _ _)

theorem enterEntry (e : Eng) (x : TaskEntry) (xs : List TaskEntry) (rest : List Frame) : Ends e (e.enterEntry env x xs rest) (e.spanEnter x) := by
  unfold Eng.enterEntry spanEnter
  cases hI : e.insts[e.cur]? with
  | none => exact of_insts rfl
  | some I =>
    have hm : Ends e (e.modI e.cur (fun _ => (I.enterTask x.task).1)) [] :=
      calm e _ _ (fun J hJ => by rw [hI] at hJ; cases hJ; exact Calm.enterTask I x.task)
    dsimp only
    cases hk : (I.enterTask x.task).2.2 with
    | notReady => exact hm.then_ (of_insts rfl)
    | eval =>
      dsimp only
      split
      · exact hm.then_ (of_insts rfl)
      · exact hm.then_ (of_insts rfl)
    | skip => exact hm.then_ (taskSkipped _ _ _ _)

theorem startInstance (e : Eng) (k : Nat) (ins : AMap String Val) {I : Inst} (hI : e.insts[k]? = some I) (s : FlowStatus) (hs : s ≠ .active) (j : Nat) :
    (Eng.startInstance env e k ins).times j s = e.times j s ∧ ((Eng.startInstance env e k ins).hit j → e.hit j) := by
  obtain ⟨I', h1, h2⟩ := startInstance_calm (env := env) e k ins hI
  have fr := StartFrame.startInstance (env := env) k e ins
  by_cases hj : j = k
  · subst hj
    refine ⟨?_, fun hh => ?_⟩
    · unfold times
      rw [h1, hI]
      dsimp only
      rw [reports_flows h2.flows]
      show List.countP _ (_ :: _) = _
      rw [List.countP_cons_of_neg]
      simp [reports, Ne.symm hs]
    · obtain ⟨K, a1, a2, a3⟩ := hh
      rw [h1] at a1; cases a1
      rw [h2.defn] at a2
      rw [h2.handling] at a3
      exact ⟨I, hI, a2, a3⟩
  · unfold times hit
    rw [fr.others j hj]
    exact ⟨rfl, fun h => h⟩

theorem evals {s : Option String} (h : Evals env i o s e f) : Ends e f [] := by
  induction h with
  | refl e => exact refl e
  | inst e F hF => exact modI e i F (fun I hI => ⟨by rw [(hF I hI).posted], (hF I hI).handling, (hF I hI).defn⟩)
  | reply e r => exact of_insts rfl
  | sub e uri d inputs _ _ _ =>
    have hn : ∀ j s, (e.newEmbedded i o uri d).times j s = e.times j s ∧ ((e.newEmbedded i o uri d).hit j → e.hit j) := by
      intro j s
      unfold times hit
      by_cases hj : j < e.insts.length
      · rw [newEmbedded_getElem? _ _ _ _ _ hj]; exact ⟨rfl, fun h => h⟩
      · rw [List.getElem?_eq_none (Nat.le_of_not_lt hj)]
        by_cases hj' : j = e.insts.length
        · subst hj'
          rw [newEmbedded_new]
          refine ⟨rfl, ?_⟩
          rintro ⟨I, h1, _, h3⟩
          cases h1; cases h3
        · rw [List.getElem?_eq_none (by rw [newEmbedded_length]; omega)]
          exact ⟨rfl, fun h => h⟩
    have hs := fun s hs j => startInstance (env := env) (e.newEmbedded i o uri d) e.insts.length inputs (newEmbedded_new e i o uri d) s hs j
    refine ⟨fun j _ => ?_, fun j _ => ?_, fun j _ hh => Or.inl ((hn j .completed).2 ((hs .completed (nomatch ·) j).2 hh))⟩
    · exact (hs .completed (nomatch ·) j).1.trans (hn j _).1
    · rw [(hs .failed (nomatch ·) j).1, (hn j _).1]; exact Nat.le_refl _
  | trans _ _ h1 h2 => exact h1.then_ h2

theorem setStatus (e : Eng) (i o : Nat) (s : TaskStatus) : Ends e (e.setStatus i o s) [] := calm e i _ (fun I _ => Calm.setTaskStatus I o s)

theorem handleResult (e : Eng) (i o : Nat) (t : TaskRef) (name : String) (r : EvalOut) (hi : ∃ I, e.insts[i]? = some I) :
    Ends e (e.handleResult env i o t name r) (spanResult env e i o t r) := by
  unfold Eng.handleResult spanResult
  cases r with
  | err err => exact taskError e i o t err
  | res r =>
    cases r with
    | done => exact taskDone e i o t
    | skip => exact taskDone e i o t
    | wait => exact setStatus e i o _
    | fail => exact (setStatus e i o .failed).task i o _
    | again =>
      refine task ?_ i o none
      have h : Ends e (e.schedule i o) [] := of_insts rfl
      exact ⟨h.compl, h.fail, h.first⟩
  | panic m =>
    dsimp only
    refine task ?_ i o _
    obtain ⟨I, hI⟩ := hi
    generalize (Err.plain ("unhandled Error executing task '" ++ t.id ++ "' : " ++ m)) = err
    rw [hI]
    dsimp only
    by_cases hh : I.handling = true
    · rw [if_pos hh]
      have : e.spanGlobal i err = [] := by unfold spanGlobal; rw [hI]; dsimp only; rw [if_pos hh]
      rw [this]; exact refl e
    · rw [if_neg hh]
      generalize (Err.eval name "unhandled" ("unhandled Error executing task '" ++ t.id ++ "' : " ++ m)) = err2
      have hA : (e.appendErrorData i t.id err2).insts[i]? =
          some ((I.setValue "_E" (errorObj t.id err2)).setValue ("_E." ++ t.id) (errorObj t.id err2)) := modI_self hI _
      rw [← spanGlobal_congr hI hA rfl rfl]
      exact (appendErrorData e _ _ _).then_ (globalError _ _ _)

/-- The operations of an evaluation end no flow instance. -/
theorem ends_nil {ops : List SpanOp} (h : ∀ op ∈ ops, ∀ k err, op ≠ .endFlow k err) (j : Nat) : endsOf j ops = [] := by
  induction ops with
  | nil => rfl
  | cons op ops ih =>
    have h1 := h op List.mem_cons_self
    have ih := ih (fun x hx => h x (List.mem_cons_of_mem _ hx))
    cases op with
    | endFlow k err => exact absurd rfl (h1 k err)
    | _ => exact ih

end Ends

end Eng

end Flow
