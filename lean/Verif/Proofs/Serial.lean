import Verif.Spec.Serial
import Verif.Proofs.Loops

/-
Lemmas about serialization.
-/

namespace Flow

open Spec

theorem AMap.get?_mapVal {K V W : Type} [DecidableEq K] (m : AMap K V) (f : V → W) (k : K) :
    AMap.get? (m.map (fun p => (p.1, f p.2))) k = (m.get? k).map f := by
  induction m with
  | nil => rfl
  | cons p m ih =>
    simp only [List.map_cons, AMap.get?]
    split
    · rfl
    · exact ih

theorem AMap.keys_mapVal {K V W : Type} (m : AMap K V) (f : V → W) :
    AMap.keys (m.map (fun p => (p.1, f p.2))) = m.keys := by
  unfold AMap.keys; rw [List.map_map]; rfl

theorem AMap.get?_foldl_set {K V : Type} [DecidableEq K] (l : AMap K V) (hn : l.keys.Nodup) (k : K) :
    AMap.get? (l.foldl (fun m p => AMap.set m p.1 p.2) []) k = l.get? k := by
  have := AMap.get?_update ([] : AMap K V) l hn k
  unfold AMap.update at this
  rw [this]
  cases l.get? k <;> rfl

theorem sameInst_restore {I : Inst} (ok : InstOK I) : Faithful I.marshal.restore I := by
  refine ⟨ok.mirror.flow, rfl, fun _ => rfl, fun k => ?_, fun k => ?_⟩
  · show AMap.get? ((I.tasks.map (fun p => (p.1, ((I.objs[p.2]?).map (·.status)).getD .notStarted))).foldl (fun m p => AMap.set m p.1 p.2) []) k = _
    rw [AMap.get?_foldl_set, AMap.get?_mapVal I.tasks (fun o => ((I.objs[o]?).map (·.status)).getD .notStarted), ← ok.mirror.task]
    · cases ho : I.tasks.get? k with
      | none => rfl
      | some o =>
        obtain ⟨ob, h1, _⟩ := ok.tasks k o ho
        simp [h1, ok.mirror.stat o ob h1]
    · rw [AMap.keys_mapVal I.tasks (fun o => ((I.objs[o]?).map (·.status)).getD .notStarted)]
      exact ok.mirror.nodup.1
  · show AMap.get? (I.links.foldl (fun m p => AMap.set m p.1 p.2) []) k = _
    rw [AMap.get?_foldl_set _ ok.mirror.nodup.2]
    exact ok.mirror.link k

theorem restoreSubs_aux (f : Nat → Option Inst) (hf : ∀ k I, f k = some I → I.subflowId = k) (l : List Nat) (m : AMap Nat RInst) (k : Nat) :
    AMap.get? ((l.filterMap (fun k => (f k).map Inst.marshal)).foldl (fun m s => m.set s.subflowId s.restore) m) k =
      if k ∈ l ∧ (f k).isSome then (f k).map (fun I => I.marshal.restore) else m.get? k := by
  induction l generalizing m with
  | nil => simp
  | cons a l ih =>
    cases ha : f a with
    | none =>
      rw [List.filterMap_cons_none (by rw [ha]; rfl), ih]
      by_cases hk : k = a
      · subst hk; simp [ha]
      · simp [hk]
    | some I =>
      rw [List.filterMap_cons_some (b := I.marshal) (by rw [ha]; rfl), List.foldl_cons, ih]
      have hs : I.marshal.subflowId = a := hf a I ha
      rw [hs, AMap.get?_set]
      by_cases hk : k = a
      · subst hk
        simp only [ha]
        by_cases hl : k ∈ l <;> simp [hl]
      · simp [hk, Ne.symm hk]

/-- The restored subflows. -/
theorem restoreSubs_get? {e : Eng} (ok : Eng.EngOK e) (k : Nat) :
    AMap.get? (restoreSubs ((List.range e.insts.length).filterMap (fun k => ((e.subflows.get? k).bind (fun j => e.insts[j]?)).map Inst.marshal))) k =
      ((e.subflows.get? k).bind (fun j => e.insts[j]?)).map (fun I => I.marshal.restore) := by
  unfold restoreSubs
  rw [restoreSubs_aux (fun k => (e.subflows.get? k).bind (fun j => e.insts[j]?))]
  · split
    · rfl
    · rename_i h
      cases hk : (e.subflows.get? k).bind (fun j => e.insts[j]?) with
      | none => rfl
      | some I =>
        exfalso; apply h
        obtain ⟨j, hj, hI⟩ := Option.bind_eq_some_iff.1 hk
        obtain ⟨h1, _, h3⟩ := ok.sub k j hj
        refine ⟨List.mem_range.2 (by omega), ?_⟩
        rw [hk]; rfl
  · intro k I h
    obtain ⟨j, hj, hI⟩ := Option.bind_eq_some_iff.1 h
    rw [ok.sid j I hI, (ok.sub k j hj).1]

theorem restoreQueue_some {top : RInst} {subs : AMap Nat RInst} {ws : List SnapItem} {q : List RItem}
    (h : restoreQueue top subs ws = some q) : q.length = ws.length ∧
      ∀ (p : Nat) (w : SnapItem) (x : RItem), ws[p]? = some w → q[p]? = some x → w.restore top subs = some x := by
  induction ws generalizing q with
  | nil => simp only [restoreQueue, Option.some.injEq] at h; subst h; simp
  | cons w ws ih =>
    unfold restoreQueue at h
    split at h
    · rename_i x xs hx hxs
      cases h
      obtain ⟨h1, h2⟩ := ih hxs
      refine ⟨by simp [h1], fun p w' x' hw hx' => ?_⟩
      cases p with
      | zero => simp at hw hx'; subst hw; subst hx'; exact hx
      | succ p => exact h2 p w' x' (by simpa using hw) (by simpa using hx')
    · cases h

theorem restoreQueue_isSome {top : RInst} {subs : AMap Nat RInst} (ws : List SnapItem) :
    (restoreQueue top subs ws).isSome ↔ ∀ w ∈ ws, w.subflowId = 0 ∨ (subs.get? w.subflowId).isSome := by
  have one : ∀ w : SnapItem, (w.restore top subs).isSome ↔ w.subflowId = 0 ∨ (subs.get? w.subflowId).isSome := by
    intro w
    unfold SnapItem.restore
    by_cases h : 0 < w.subflowId
    · rw [if_pos h]
      cases subs.get? w.subflowId <;> simp <;> omega
    · rw [if_neg h]; simp; omega
  induction ws with
  | nil => simp [restoreQueue]
  | cons w ws ih =>
    have h1 := one w
    unfold restoreQueue
    cases hw : w.restore top subs with
    | none =>
      rw [hw] at h1
      have : ¬ (w.subflowId = 0 ∨ (subs.get? w.subflowId).isSome) := by rw [← h1]; simp
      simp only [Option.isSome_none, Bool.false_eq_true, false_iff]
      intro h; exact this (h w (List.mem_cons_self ..))
    | some x =>
      rw [hw] at h1
      have h2 := h1.1 rfl
      cases hq : restoreQueue top subs ws with
      | none =>
        rw [hq] at ih
        simp only [Option.isSome_none, Bool.false_eq_true, false_iff]
        intro h
        have := ih.2 (fun w' hw' => h w' (List.mem_cons_of_mem _ hw'))
        simp at this
      | some xs =>
        rw [hq] at ih
        simp only [Option.isSome_some, true_iff]
        intro w' hw'
        rcases List.mem_cons.1 hw' with h3 | h3
        · rw [h3]; exact h2
        · exact ih.1 rfl w' h3

/-- The item of a work item that has an object. -/
theorem Eng.itemOf_eq {e : Eng} (ok : Eng.EngOK e) {w : WorkItem} (hw : w ∈ e.queue) : e.itemOf w = ⟨w.id, w.inst, taskOf e w.inst w.obj⟩ := by
  obtain ⟨I, ob, hI, hob, _⟩ := ok.queue w hw
  have h1 : e.obj? w.inst w.obj = some ob := (Eng.obj?_eq hI).trans hob
  unfold Eng.itemOf Spec.taskOf
  rw [h1, hI]
  simp [ok.sid _ _ hI]

end Flow
