import Verif.Proofs.SpanRun
import Verif.Spec.Attempts

/-
Spans of the attempts to evaluate an activity.
-/

namespace Flow
open Spec SpanSt

/-- The operations on spans of attempts: each starts a span, that of every attempt but the last is finished with its error. -/
inductive Tried (i o : Nat) : Attempt → List Attempt → List SpanOp → Prop
  | last {a : Attempt} {fl : List SpanOp} : (∀ op ∈ fl, Eng.OnFlow op) → Tried i o a [] (.startTask i o :: fl)
  | more {a b : Attempt} {bs : List Attempt} {fl ops : List SpanOp} {err : Err} : a.result = .error err → (∀ op ∈ fl, Eng.OnFlow op) →
      Tried i o b bs ops → Tried i o a (b :: bs) (.startTask i o :: (fl ++ .endTask i o (some err) :: ops))

namespace Eng

variable {env : Env} {i o : Nat}

/-- The part of `spanOnce` that concerns flow instances. -/
def spanSubs (env : Env) (e : Eng) (i o : Nat) : List SpanOp :=
  (List.range' e.insts.length ((evalOnce env e i o).1.insts.length - e.insts.length)).map (fun j => .startFlow j i o)

theorem spanSubs_flow (e : Eng) : ∀ op ∈ spanSubs env e i o, OnFlow op := by
  intro op hop
  obtain ⟨j, _, rfl⟩ := List.mem_map.1 hop
  trivial

theorem spanOnce_eq (e : Eng) : spanOnce env e i o = .startTask i o :: spanSubs env e i o := rfl

theorem spanRetry_tried (n : Nat) (e : Eng) : ∃ a as, Retried env i o a as n ∧ a.before = e.setRetry i o n ∧
    (lastAttempt a as).after = (retryFrom env n e i o).1 ∧ (lastAttempt a as).result = (retryFrom env n e i o).2 ∧
    Tried i o a as (spanRetry env n e i o) := by
  induction n generalizing e with
  | zero =>
    refine ⟨⟨e.setRetry i o 0, (evalOnce env (e.setRetry i o 0) i o).1, (evalOnce env (e.setRetry i o 0) i o).2⟩, [], ?_, rfl, rfl, rfl, ?_⟩
    · exact ⟨rfl, fun _ => rfl⟩
    · exact .last (spanSubs_flow _)
  | succ n ih =>
    let a : Attempt := ⟨e.setRetry i o ((n : Int) + 1), (evalOnce env (e.setRetry i o (n + 1)) i o).1, (evalOnce env (e.setRetry i o (n + 1)) i o).2⟩
    have hreal : a.real env i o := rfl
    have single : ¬ a.again → retryFrom env (n + 1) e i o = (a.after, a.result) →
        spanRetry env (n + 1) e i o = spanOnce env (e.setRetry i o (n + 1)) i o → ∃ a as, Retried env i o a as (n + 1) ∧
        a.before = e.setRetry i o ((n + 1 : Nat) : Int) ∧
        (lastAttempt a as).after = (retryFrom env (n + 1) e i o).1 ∧ (lastAttempt a as).result = (retryFrom env (n + 1) e i o).2 ∧
        Tried i o a as (spanRetry env (n + 1) e i o) :=
      fun hna heq hsp => ⟨a, [], ⟨hreal, fun h => absurd h hna⟩, rfl, by rw [heq]; rfl, by rw [heq]; rfl, by
        rw [hsp]; exact .last (spanSubs_flow _)⟩
    cases hr : a.result with
    | ok b =>
      have hev : evalOnce env (e.setRetry i o (n + 1)) i o = (a.after, .ok b) := by rw [← hr]
      apply single
      · rintro ⟨err, h1, _⟩; rw [hr] at h1; cases h1
      · unfold retryFrom
        rw [hev, hr]
      · rw [spanRetry, hev]
        exact List.append_nil _
    | error err =>
      have hev : evalOnce env (e.setRetry i o (n + 1)) i o = (a.after, .error err) := by rw [← hr]
      cases hb : err.retriable with
      | false =>
        apply single
        · rintro ⟨err', h1, h2⟩; rw [hr] at h1; cases h1; rw [hb] at h2; cases h2
        · unfold retryFrom
          rw [hev, hr]
          simp [hb]
        · rw [spanRetry, hev]
          simp [hb]
      | true =>
        have heq : retryFrom env (n + 1) e i o = retryFrom env n a.after i o := by
          conv => lhs; unfold retryFrom
          rw [hev]
          simp [hb]
        obtain ⟨b, bs, h1, h2, h3, h4, h5⟩ := ih a.after
        refine ⟨a, b :: bs, ⟨hreal, ⟨err, hr, hb⟩, ?_, h1⟩, rfl, ?_, ?_, ?_⟩
        · rw [h2]; exact Unseen.setRetry ..
        · rw [heq]; exact h3
        · rw [heq]; exact h4
        · rw [spanRetry, hev]
          dsimp only
          rw [if_pos hb, spanOnce_eq]
          exact .more hr (spanSubs_flow _) h5

/-- Attempts, their spans, and the state and the result of the evaluation they belong to. -/
def TriedBy (env : Env) (i o : Nat) (e : Eng) (ops : List SpanOp) (e' : Eng) : Prop :=
  ∃ a as n, Retried env i o a as n ∧ Tried i o a as ops ∧ a.before = e ∧ ∀ j, calls e' j = calls (lastAttempt a as).after j

theorem spanActivity_tried (e : Eng) : TriedBy env i o e (spanActivity env e i o) (evalActivity env e i o).1 := by
  let a : Attempt := ⟨e, (e.evalOnce env i o).1, (e.evalOnce env i o).2⟩
  have hreal : a.real env i o := rfl
  have hsplit : e.evalOnce env i o = (a.after, a.result) := rfl
  have single : spanActivity env e i o = spanOnce env e i o → (∀ j, calls (evalActivity env e i o).1 j = calls a.after j) →
      TriedBy env i o e (spanActivity env e i o) (evalActivity env e i o).1 :=
    fun h1 h2 => ⟨a, [], 0, ⟨hreal, fun _ => rfl⟩, by rw [h1]; exact .last (spanSubs_flow _), rfl, h2⟩
  cases hr : a.result with
  | ok b =>
    have hev : e.evalOnce env i o = (a.after, .ok b) := by rw [← hr]
    apply single
    · rw [spanActivity, hev]; exact List.append_nil _
    · intro j
      unfold evalActivity
      rw [hev]
  | error err =>
    have hev : e.evalOnce env i o = (a.after, .error err) := by rw [← hr]
    have hE : e.evalActivity env i o = if err.retriable && a.after.hasRetry i o then
        match Eng.getRetry env a.after i o with
        | (e2, .error rerr) => (e2, .error rerr)
        | (e2, .ok c) => if 0 < c then Eng.retryFrom env (c.toNat - 1) e2 i o else (e2, .error err)
        else (a.after, .error err) := by
      conv => lhs; unfold Eng.evalActivity
      rw [hev]
      rfl
    have hS : spanActivity env e i o = spanOnce env e i o ++ if err.retriable && a.after.hasRetry i o then
        match Eng.getRetry env a.after i o with
        | (_, .error _) => []
        | (e2, .ok c) => if 0 < c then .endTask i o (some err) :: spanRetry env (c.toNat - 1) e2 i o else []
        else [] := by
      conv => lhs; unfold Eng.spanActivity
      rw [hev]
      rfl
    by_cases hc : (err.retriable && a.after.hasRetry i o) = true
    · rw [if_pos hc] at hE hS
      simp only [Bool.and_eq_true] at hc
      have hagain : a.again := ⟨err, hr, hc.1⟩
      have hgl := Eng.LocalE.getRetry (env := env) (i := i) (o := o) a.after
      have hgu := Spec.Unseen.getRetry (env := env) a.after i o
      generalize Eng.getRetry env a.after i o = q at hE hS hgl hgu
      obtain ⟨e2, rc⟩ := q
      cases rc with
      | error rerr =>
        dsimp only at hS hE hgl
        apply single
        · rw [hS]; exact List.append_nil _
        · intro j; rw [hE]; exact hgl.calls j
      | ok c =>
        dsimp only at hS hE hgl
        by_cases hpos : 0 < c
        · rw [if_pos hpos] at hE hS
          obtain ⟨b, bs, h1, h2, h3, h4, h5⟩ := spanRetry_tried (env := env) (i := i) (o := o) (c.toNat - 1) e2
          refine ⟨a, b :: bs, c.toNat - 1 + 1, ⟨hreal, hagain, ?_, h1⟩, ?_, rfl, fun j => ?_⟩
          · rw [h2]; exact Unseen.trans hgu (.setRetry ..)
          · rw [hS, spanOnce_eq]
            exact .more hr (spanSubs_flow _) h5
          · rw [hE]
            show _ = calls (lastAttempt b bs).after j
            rw [h3]
        · rw [if_neg hpos] at hE hS
          apply single
          · rw [hS]; exact List.append_nil _
          · intro j; rw [hE]; exact hgl.calls j
    · rw [if_neg hc] at hE hS
      apply single
      · rw [hS]; exact List.append_nil _
      · intro j; rw [hE]

theorem calls_setStatus_all (e : Eng) (st : TaskStatus) (j : Nat) : calls (e.setStatus i o st) j = calls e j := by
  by_cases hj : j = i
  · subst hj; exact calls_setStatus e
  · unfold Spec.calls Eng.setStatus
    rw [modI_ne (Ne.symm hj)]

theorem calls_modO (e : Eng) (f : Obj → Obj) (j : Nat) : calls (e.modI i (fun I => I.modO o f)) j = calls e j := by
  unfold Spec.calls
  rw [modI_getElem?]
  by_cases hj : i = j
  · rw [if_pos hj]
    cases e.insts[j]? <;> rfl
  · rw [if_neg hj]

theorem TriedBy.congr {e f f' : Eng} {ops : List SpanOp} (h : TriedBy env i o e ops f) (hc : ∀ j, calls f' j = calls f j) :
    TriedBy env i o e ops f' := by
  obtain ⟨a, as, n, h1, h2, h3, h4⟩ := h
  exact ⟨a, as, n, h1, h2, h3, fun j => (hc j).trans (h4 j)⟩

/-- The attempts of an evaluation; a round of an iterator that ends makes none. -/
theorem spanEval_tried (e : Eng) (td : TaskDef) :
    (td.kind = .iterator ∧ spanEval env e i o td = [] ∧ ∀ j, calls (evalKind env e i o td).1 j = calls e j) ∨
    ∃ f, (∀ j, calls f j = calls e j) ∧ TriedBy env i o f (spanEval env e i o td) (evalKind env e i o td).1 := by
  unfold spanEval evalKind
  cases hk : td.kind with
  | basic =>
    refine Or.inr ⟨e, fun _ => rfl, (spanActivity_tried e).congr fun j => ?_⟩
    unfold evalBasic
    dsimp only
    split <;> simp_all
  | iterator =>
    dsimp only
    unfold spanIter evalIter
    cases getIter env e i o td with
    | error err => exact Or.inl ⟨rfl, rfl, fun _ => rfl⟩
    | ok oi =>
      cases oi with
      | none => exact Or.inl ⟨rfl, rfl, fun _ => rfl⟩
      | some it =>
        dsimp only
        split
        · refine Or.inl ⟨rfl, rfl, fun j => ?_⟩
          exact calls_modO e _ j
        · cases hv : it.next.1.value with
          | none => exact Or.inl ⟨rfl, rfl, fun _ => rfl⟩
          | some v =>
            dsimp only
            refine Or.inr ⟨_, fun j => ?_, (spanActivity_tried _).congr fun j => ?_⟩
            · exact calls_modO e _ j
            · split <;> simp_all [calls_setStatus_all]
  | doWhile =>
    refine Or.inr ⟨_, fun j => (LocalE.dwInit (i := i) (o := o) e).calls j, (spanActivity_tried _).congr fun j => ?_⟩
    unfold evalDoWhile
    dsimp only
    split
    · rename_i h; rw [h]; exact calls_setStatus_all _ _ _
    · rename_i h; rw [h]; exact calls_setStatus_all _ _ _
    · rename_i h; rw [h]; exact (LocalE.dwUpdate (i := i) (o := o) _).calls j

/-- What a resumed task does: no further attempt, or the span of the attempt that waited is finished with its error and the
activity is evaluated again. -/
theorem spanPost_tried (e : Eng) (td : TaskDef) :
    spanPost env e i o td = [] ∨
    ∃ err ops f, spanPost env e i o td = .endTask i o (some err) :: ops ∧ (postOnce env e i o).2 = .error err ∧
      (∀ j, calls f j = calls (postOnce env e i o).1 j) ∧ TriedBy env i o f ops (postKind env e i o td).1 := by
  unfold spanPost postKind
  cases hk : td.kind with
  | iterator => exact Or.inl rfl
  | doWhile => exact Or.inl rfl
  | basic =>
    dsimp only
    unfold postBasic
    generalize postOnce env e i o = q
    obtain ⟨e1, r⟩ := q
    cases r with
    | ok b => exact Or.inl rfl
    | error err =>
      dsimp only
      by_cases hc : (err.isAct && e1.hasRetry i o) = true
      · rw [if_pos hc, if_pos hc]
        have hgl := Eng.LocalE.getRetry (env := env) (i := i) (o := o) e1
        generalize Eng.getRetry env e1 i o = q at hgl
        obtain ⟨e2, rc⟩ := q
        cases rc with
        | error rerr => exact Or.inl rfl
        | ok c =>
          dsimp only at hgl ⊢
          by_cases hpos : 0 < c
          · rw [if_pos hpos, if_pos hpos]
            obtain ⟨b, bs, h1, h2, h3, h4, h5⟩ := spanRetry_tried (env := env) (i := i) (o := o) (c.toNat - 1) e2
            refine Or.inr ⟨err, _, _, rfl, rfl, fun j => ?_, b, bs, _, h1, h5, h2, fun j => ?_⟩
            · rw [(Eng.LocalE.setRetry (i := i) (o := o) e2 _).calls j, hgl.calls j]
            · rw [h3]
              split <;> simp_all
          · rw [if_neg hpos]; exact Or.inl rfl
      · rw [if_neg hc]; exact Or.inl rfl

end Eng

namespace SpanSt

variable {i o : Nat}

theorem spansOf_started {log : List SpanEv} {k : Nat} {w v : SpanOwner} {p : Option Nat} :
    spansOf (.started k v p :: log) w = if v = w then spansOf log w ++ [k] else spansOf log w := rfl

theorem spansOf_finished {log : List SpanEv} {k : Nat} {w : SpanOwner} {err : Option Err} :
    spansOf (.finished k err :: log) w = spansOf log w := rfl

theorem mem_spansOf {log : List SpanEv} {k : Nat} {w : SpanOwner} : k ∈ spansOf log w ↔ OwnedBy log k w := by
  induction log with
  | nil => exact ⟨fun h => (nomatch h), fun ⟨_, h⟩ => (nomatch h)⟩
  | cons ev log ih =>
    cases ev with
    | finished n err => rw [spansOf_finished, owned_finished]; exact ih
    | started n v p =>
      rw [spansOf_started, owned_started]
      split
      · rename_i h
        subst h
        rw [List.mem_append, List.mem_singleton, ih]
        exact ⟨fun h => h.elim Or.inr (fun h => Or.inl ⟨h, rfl⟩), fun h => h.elim (fun h => Or.inr h.1) Or.inl⟩
      · rename_i h
        rw [ih]
        exact ⟨Or.inr, fun h' => h'.elim (fun h' => absurd h'.2.symm h) (fun h => h)⟩

/-- The spans of a task instance are as before, except that one was finished. -/
structure Ends (i o : Nat) (st st' : SpanSt) (k : Nat) (x : List (Option Err)) : Prop where
  spans : spansOf st'.log (.task i o) = spansOf st.log (.task i o)
  other : ∀ m, OwnedBy st.log m (.task i o) → m ≠ k → finishes st'.log m = finishes st.log m
  this : finishes st'.log k = x ++ finishes st.log k

/-- Operations on spans of flow instances, and forgetting a span, leave the spans of a task as they are. -/
theorem flow_kept {ops : List SpanOp} : ∀ {st : SpanSt}, st.WF → (∀ op ∈ ops, Eng.OnFlow op ∨ op = .dropTask i o) →
    spansOf (st.applyAll ops).log (.task i o) = spansOf st.log (.task i o) ∧
    (∀ k, OwnedBy st.log k (.task i o) → finishes (st.applyAll ops).log k = finishes st.log k) ∧
    ((∀ op ∈ ops, Eng.OnFlow op) → (st.applyAll ops).task i o = st.task i o) := by
  induction ops with
  | nil => intro st _ _; exact ⟨rfl, fun _ _ => rfl, fun _ => rfl⟩
  | cons op ops ih =>
    intro st w hops
    have h1 : spansOf (st.apply op).log (.task i o) = spansOf st.log (.task i o) ∧
        (∀ k, OwnedBy st.log k (.task i o) → finishes (st.apply op).log k = finishes st.log k) ∧
        (Eng.OnFlow op → (st.apply op).task i o = st.task i o) := by
      rcases hops op List.mem_cons_self with hop | rfl
      · cases op with
        | startFlow j a b =>
          refine ⟨?_, fun k hk => rfl, fun _ => rfl⟩
          show spansOf (.started _ _ _ :: st.log) _ = _
          rw [spansOf_started, if_neg (nomatch ·)]
        | endFlow j err =>
          unfold SpanSt.apply
          dsimp only
          cases hj : st.flow j with
          | none => exact ⟨rfl, fun _ _ => rfl, fun _ => rfl⟩
          | some x =>
            refine ⟨rfl, fun k hk => ?_, fun _ => rfl⟩
            show finishes (.finished x err :: st.log) k = _
            rw [finishes_finished, if_neg (fun hx => ?_)]
            subst hx
            have := w.owner hk (w.flow _ _ hj)
            cases this
        | _ => exact False.elim hop
      · exact ⟨rfl, fun _ _ => rfl, False.elim⟩
    obtain ⟨a1, a2, a3⟩ := ih (w.apply op) (fun x hx => hops x (List.mem_cons_of_mem _ hx))
    rw [applyAll_cons]
    refine ⟨a1.trans h1.1, fun k hk => (a2 k ?_).trans (h1.2.1 k hk), fun hf => ?_⟩
    · rw [← mem_spansOf, h1.1, mem_spansOf]; exact hk
    · exact (a3 (fun x hx => hf x (List.mem_cons_of_mem _ hx))).trans (h1.2.2 (hf op List.mem_cons_self))

/-- What follows the attempts: it finishes the newest span in the way `x` says. -/
def Tail (i o : Nat) (tail : List SpanOp) (x : List (Option Err)) : Prop :=
  ∀ (st : SpanSt) (k : Nat), st.WF → st.task i o = some k → Ends i o st (st.applyAll tail) k x

theorem Tail.nil : Tail i o [] [] := fun _ _ _ _ => ⟨rfl, fun _ _ _ => rfl, rfl⟩

theorem endTask_ends {st : SpanSt} {k : Nat} (hs : st.task i o = some k) (err : Option Err) :
    Ends i o st (st.apply (.endTask i o err)) k [err] ∧ (st.apply (.endTask i o err)).task i o = some k := by
  unfold SpanSt.apply
  dsimp only
  rw [hs]
  refine ⟨⟨rfl, fun m _ hm => ?_, ?_⟩, hs⟩
  · show finishes (.finished k err :: st.log) m = _
    rw [finishes_finished, if_neg (fun hx => hm hx.symm)]
  · show finishes (.finished k err :: st.log) k = _
    rw [finishes_finished, if_pos rfl]; rfl

theorem Tail.close {rest : List SpanOp} (err : Option Err) (h : ∀ op ∈ rest, Eng.OnFlow op ∨ op = .dropTask i o) :
    Tail i o (.endTask i o err :: rest) [err] := by
  intro st k w hs
  obtain ⟨h1, h2⟩ := endTask_ends hs err
  obtain ⟨a1, a2, _⟩ := flow_kept (w.apply (.endTask i o err)) h
  rw [applyAll_cons]
  have own : ∀ m, OwnedBy st.log m (.task i o) → OwnedBy (st.apply (.endTask i o err)).log m (.task i o) := by
    intro m hm
    rw [← mem_spansOf, h1.spans, mem_spansOf]; exact hm
  exact ⟨a1.trans h1.spans, fun m hm hne => (a2 m (own m hm)).trans (h1.other m hm hne),
    (a2 k (own k (w.task _ _ _ hs).1)).trans h1.this⟩

/-- The spans started by attempts and what became of them. -/
theorem tried_spans {a : Attempt} {as : List Attempt} {ops tail : List SpanOp} {x : List (Option Err)} (h : Tried i o a as ops) (ht : Tail i o tail x) :
    ∀ {st : SpanSt}, st.WF → ∃ ks, spansOf (st.applyAll (ops ++ tail)).log (.task i o) = spansOf st.log (.task i o) ++ ks ∧
      ks.map (finishes (st.applyAll (ops ++ tail)).log) = (a :: as).dropLast.map (fun b => [b.error]) ++ [x] ∧
      ∀ m, OwnedBy st.log m (.task i o) → finishes (st.applyAll (ops ++ tail)).log m = finishes st.log m := by
  -- starting a span
  have start : ∀ {st : SpanSt} {fl : List SpanOp}, st.WF → (∀ op ∈ fl, Eng.OnFlow op) →
      spansOf (st.applyAll (.startTask i o :: fl)).log (.task i o) = spansOf st.log (.task i o) ++ [st.next] ∧
      (∀ m, OwnedBy st.log m (.task i o) → finishes (st.applyAll (.startTask i o :: fl)).log m = finishes st.log m) ∧
      finishes (st.applyAll (.startTask i o :: fl)).log st.next = [] ∧
      (st.applyAll (.startTask i o :: fl)).task i o = some st.next := by
    intro st fl w hfl
    obtain ⟨b1, b2, b3⟩ := flow_kept (i := i) (o := o) (w.apply (.startTask i o)) (fun op hop => Or.inl (hfl op hop))
    have hs : spansOf (st.apply (.startTask i o)).log (.task i o) = spansOf st.log (.task i o) ++ [st.next] := by
      show spansOf (.started _ _ _ :: st.log) _ = _
      rw [spansOf_started, if_pos rfl]
    have own : ∀ m, (m = st.next ∨ OwnedBy st.log m (.task i o)) → OwnedBy (st.apply (.startTask i o)).log m (.task i o) := by
      intro m hm
      rw [← mem_spansOf, hs, List.mem_append, List.mem_singleton, mem_spansOf]
      exact hm.elim Or.inr Or.inl
    rw [applyAll_cons]
    refine ⟨b1.trans hs, fun m hm => (b2 m (own m (Or.inr hm))).trans rfl, ?_, (b3 hfl).trans ?_⟩
    · rw [b2 _ (own _ (Or.inl rfl))]
      exact finishes_nil w.fin _ (Nat.le_refl _)
    · show setTask st.task i o _ i o = _
      unfold setTask; rw [if_pos ⟨rfl, rfl⟩]
  induction h with
  | last hfl =>
    intro st w
    obtain ⟨c1, c2, c3, c4⟩ := start w hfl
    rw [applyAll_append]
    have e1 := ht _ _ (w.applyAll _) c4
    refine ⟨[st.next], e1.spans.trans c1, ?_, fun m hm => ?_⟩
    · show [finishes _ _] = [x]
      rw [e1.this, c3, List.append_nil]
    · rw [e1.other m ?_ ?_, c2 m hm]
      · rw [← mem_spansOf, c1, List.mem_append, mem_spansOf]; exact Or.inl hm
      · have := w.owned_lt hm; omega
  | @more a b bs fl ops err hr hfl _ ih =>
    intro st w
    obtain ⟨c1, c2, c3, c4⟩ := start w hfl
    obtain ⟨d1, d2⟩ := endTask_ends c4 (some err)
    have hsplit : st.applyAll (.startTask i o :: (fl ++ .endTask i o (some err) :: ops) ++ tail) =
        ((st.applyAll (.startTask i o :: fl)).apply (.endTask i o (some err))).applyAll (ops ++ tail) := by
      rw [← applyAll_cons, ← applyAll_append]
      simp
    obtain ⟨ks, g1, g2, g3⟩ := ih ((w.applyAll (.startTask i o :: fl)).apply (.endTask i o (some err)))
    rw [hsplit]
    have own : ∀ m, (m = st.next ∨ OwnedBy st.log m (.task i o)) →
        OwnedBy ((st.applyAll (.startTask i o :: fl)).apply (.endTask i o (some err))).log m (.task i o) := by
      intro m hm
      rw [← mem_spansOf, d1.spans, c1, List.mem_append, List.mem_singleton, mem_spansOf]
      exact hm.elim Or.inr Or.inl
    refine ⟨st.next :: ks, ?_, ?_, fun m hm => ?_⟩
    · rw [g1, d1.spans, c1]; simp
    · rw [List.map_cons, g2, g3 _ (own _ (Or.inl rfl)), d1.this, c3]
      have : a.error = some err := by unfold Attempt.error; rw [hr]
      show _ = ((a :: (b :: bs).dropLast).map _) ++ _
      rw [List.map_cons, this]; rfl
    · rw [g3 m (own m (Or.inr hm)), d1.other m ?_ ?_, c2 m hm]
      · rw [← mem_spansOf, c1, List.mem_append, mem_spansOf]; exact Or.inl hm
      · have := w.owned_lt hm; omega

end SpanSt
end Flow
