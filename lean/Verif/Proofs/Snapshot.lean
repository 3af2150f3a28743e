import Verif.Spec.Snapshot

/-
How `StepsToSnapshot` reads the steps.
-/

namespace Flow
open Spec

section Put
variable {K S : Type} [DecidableEq K] [DecidableEq S]

omit [DecidableEq S] in

theorem AMap.get?_append (l m : AMap K S) (k : K) : AMap.get? (l ++ m) k = (l.get? k).or (m.get? k) := by
  induction l with
  | nil => simp
  | cons p l ih =>
    obtain ⟨a, b⟩ := p
    simp only [List.cons_append, AMap.get?]
    split
    · simp
    · exact ih

/-- The status of a key after a further record. -/
def mergeSt (zero : S) (old : Option S) (s : S) : Option S :=
  match old with
  | none => some s
  | some s0 => if s0 = zero then some s else some s0

theorem putStatus_get? (zero : S) (l : AMap K S) (k k' : K) (s : S) :
    (putStatus zero l k s).get? k' = if k = k' then mergeSt zero (l.get? k) s else l.get? k' := by
  unfold putStatus
  split
  · rename_i h
    rw [AMap.get?_append]
    by_cases hk : k = k'
    · subst hk; simp [h, AMap.get?, mergeSt]
    · simp [AMap.get?, hk]
  · rename_i s0 h
    by_cases hk : k = k'
    · subst hk
      rw [h]
      split
      · simp [AMap.get?_set, mergeSt, *]
      · simp [mergeSt, *]
    · split <;> simp [AMap.get?_set, hk]

theorem foldl_putStatus_get? (zero : S) {V : Type} (f : V → S) (cs : AMap K V) (hn : cs.keys.Nodup) (l : AMap K S) (k : K) :
    (cs.foldl (fun l p => putStatus zero l p.1 (f p.2)) l).get? k =
      match cs.get? k with
      | none => l.get? k
      | some c => mergeSt zero (l.get? k) (f c) := by
  induction cs generalizing l with
  | nil => rfl
  | cons p cs ih =>
    obtain ⟨a, c⟩ := p
    simp only [AMap.keys, List.map_cons, List.nodup_cons] at hn
    rw [List.foldl_cons, ih hn.2, putStatus_get?]
    simp only [AMap.get?]
    by_cases ha : a = k
    · subst ha
      have : AMap.get? cs a = none := AMap.get?_eq_none_iff.2 hn.1
      simp [this]
    · simp [ha]

end Put

/-- The flow changes of a step: that of the main flow counts. -/
theorem flows_main {i : Nat} {fs : AMap Nat FlowChg} (h : ∀ p ∈ fs, p.1 = p.2.subflowId) (hn : fs.keys.Nodup) (r : Rebuild) :
    (fs.foldl (Rebuild.flow i) r).base = ((fs.get? 0).map r.base.updateFlow).getD r.base := by
  induction fs generalizing r with
  | nil => rfl
  | cons p l ih =>
    obtain ⟨a, c⟩ := p
    have h1 : a = c.subflowId := h (a, c) (List.mem_cons_self ..)
    have hl : ∀ p ∈ l, p.1 = p.2.subflowId := fun p hp => h p (List.mem_cons_of_mem _ hp)
    simp only [AMap.keys, List.map_cons, List.nodup_cons] at hn
    rw [List.foldl_cons, ih hl hn.2]
    by_cases ha : a = 0
    · subst ha
      have h2 : AMap.get? l 0 = none := AMap.get?_eq_none_iff.2 hn.1
      have h3 : AMap.get? ((0, c) :: l) 0 = some c := by simp [AMap.get?]
      rw [h2, h3]
      show (Rebuild.flow i r (0, c)).base = r.base.updateFlow c
      unfold Rebuild.flow
      rw [if_neg (by simp [← h1])]
    · have h3 : AMap.get? ((a, c) :: l) 0 = AMap.get? l 0 := by simp [AMap.get?, ha]
      have h4 : Rebuild.flow i r (a, c) = r := by
        unfold Rebuild.flow
        rw [if_pos (by show 0 < c.subflowId; omega)]
      rw [h3, h4]

theorem Rebuild.item_frame (r : Rebuild) (l : List (Nat × QueueChg)) :
    (l.foldl Rebuild.item r).base = r.base ∧ (l.foldl Rebuild.item r).shared = r.shared := by
  induction l generalizing r with
  | nil => exact ⟨rfl, rfl⟩
  | cons p l ih =>
    rw [List.foldl_cons]
    obtain ⟨h1, h2⟩ := ih (r.item p)
    have : (r.item p).base = r.base ∧ (r.item p).shared = r.shared := by
      unfold Rebuild.item
      split
      · exact ⟨rfl, rfl⟩
      · split
        · exact ⟨rfl, rfl⟩
        · split
          · exact ⟨rfl, rfl⟩
          · split <;> exact ⟨rfl, rfl⟩
    exact ⟨h1.trans this.1, h2.trans this.2⟩

/-- The base after the steps: the main changes, newest first. -/
theorem rebuild_base_aux (l : List (Nat × StepRec))
    (hm : ∀ q ∈ l, (∀ p ∈ q.2.flows, p.1 = p.2.subflowId) ∧ q.2.flows.keys.Nodup) (r : Rebuild) :
    (l.foldl Rebuild.step r).base = (l.filterMap (fun q => q.2.flows.get? 0)).foldl SnapBase.updateFlow r.base := by
  induction l generalizing r with
  | nil => rfl
  | cons q l ih =>
    rw [List.foldl_cons, ih (fun q' h => hm q' (List.mem_cons_of_mem _ h))]
    have hq := hm q (List.mem_cons_self ..)
    have hb : (r.step q).base = ((q.2.flows.get? 0).map r.base.updateFlow).getD r.base := by
      unfold Rebuild.step; rw [(Rebuild.item_frame _ _).1, flows_main hq.1 hq.2]
    rw [hb, List.filterMap_cons]
    cases q.2.flows.get? 0 with
    | none => rfl
    | some c => rfl

theorem numbered_snd (steps : List StepRec) : (numbered steps).map (·.2) = steps := by
  unfold numbered
  exact List.map_snd_zip (by simp)

theorem rebuild_base {steps : List StepRec} (hm : Numbered steps) (hw : Maps steps) :
    (rebuild steps).base = (mainChanges steps).reverse.foldl SnapBase.updateFlow {} := by
  unfold rebuild
  have hmem : ∀ q ∈ numbered steps, q.2 ∈ steps := by
    intro q hq
    rw [← numbered_snd steps]; exact List.mem_map.2 ⟨q, hq, rfl⟩
  rw [rebuild_base_aux]
  · congr 1
    rw [List.filterMap_reverse]
    unfold mainChanges
    conv => rhs; rw [← numbered_snd steps, List.filterMap_map]
    rfl
  · intro q hq
    have := hmem q (List.mem_reverse.1 hq)
    exact ⟨fun p hp => hm _ this p hp, (hw _ this).1⟩

/-- The statuses of a key in changes listed newest first: the first one that is not zero. -/
def pickSt {S : Type} [DecidableEq S] (zero : S) (l : List S) (old : Option S) : Option S := l.foldl (mergeSt zero) old

theorem pickSt_of_ne {S : Type} [DecidableEq S] {zero s : S} (h : s ≠ zero) (l : List S) : pickSt zero l (some s) = some s := by
  unfold pickSt
  induction l with
  | nil => rfl
  | cons x l ih => rw [List.foldl_cons]; unfold mergeSt; dsimp only; rw [if_neg h]; exact ih

theorem base_tasks (cs : List FlowChg) (hn : ∀ c ∈ cs, c.tasks.keys.Nodup) (b : SnapBase) (k : TaskId) :
    (cs.foldl SnapBase.updateFlow b).tasks.get? k =
      pickSt .notStarted (cs.filterMap (fun c => (c.tasks.get? k).map (·.status))) (b.tasks.get? k) := by
  induction cs generalizing b with
  | nil => rfl
  | cons c cs ih =>
    rw [List.foldl_cons, ih (fun c' h => hn c' (List.mem_cons_of_mem _ h)), List.filterMap_cons]
    have h1 := foldl_putStatus_get? TaskStatus.notStarted (fun x : KeyChg TaskStatus => x.status) c.tasks (hn c (by simp)) b.tasks k
    have h2 : (b.updateFlow c).tasks = c.tasks.foldl (fun l p => putStatus .notStarted l p.1 p.2.status) b.tasks := rfl
    rw [h2, h1]
    cases c.tasks.get? k <;> rfl

theorem base_links (cs : List FlowChg) (hn : ∀ c ∈ cs, c.links.keys.Nodup) (b : SnapBase) (k : LinkId) :
    (cs.foldl SnapBase.updateFlow b).links.get? k =
      pickSt .unset (cs.filterMap (fun c => (c.links.get? k).map (·.status))) (b.links.get? k) := by
  induction cs generalizing b with
  | nil => rfl
  | cons c cs ih =>
    rw [List.foldl_cons, ih (fun c' h => hn c' (List.mem_cons_of_mem _ h)), List.filterMap_cons]
    have h1 := foldl_putStatus_get? LinkStatus.unset (fun x : KeyChg LinkStatus => x.status) c.links (hn c (by simp)) b.links k
    have h2 : (b.updateFlow c).links = c.links.foldl (fun l p => putStatus .unset l p.1 p.2.status) b.links := rfl
    rw [h2, h1]
    cases c.links.get? k <;> rfl

theorem base_attrs (cs : List FlowChg) (hn : ∀ c ∈ cs, c.attrs.keys.Nodup) (b : SnapBase) (n : String) :
    ((cs.foldl SnapBase.updateFlow b).attrs.getD []).get? n =
      ((cs.filterMap (fun c => c.attrs.get? n)).getLast?).or ((b.attrs.getD []).get? n) := by
  induction cs generalizing b with
  | nil => simp
  | cons c cs ih =>
    rw [List.foldl_cons, ih (fun c' h => hn c' (List.mem_cons_of_mem _ h)), List.filterMap_cons]
    have h2 : (((b.updateFlow c).attrs.getD []).get? n) = (c.attrs.get? n).or ((b.attrs.getD []).get? n) := by
      show (((if c.attrs = [] then b.attrs else match b.attrs with | none => some c.attrs | some m => some (m.update c.attrs)) : Option (AMap String Val)).getD []).get? n = _
      split
      · rename_i h; rw [h]; simp
      · cases b.attrs with
        | none => simp
        | some m =>
          simp only [Option.getD_some]
          rw [AMap.get?_update _ _ (hn c (by simp))]
          cases c.attrs.get? n <;> rfl
    rw [h2]
    cases c.attrs.get? n with
    | none => simp
    | some v =>
      dsimp only
      rw [List.getLast?_cons]
      cases (cs.filterMap (fun c => c.attrs.get? n)).getLast? <;> simp

/-- The status of the flow. -/
theorem base_status (cs : List FlowChg) (b : SnapBase) :
    some (cs.foldl SnapBase.updateFlow b).status = pickSt .notStarted (cs.map (·.status)) (some b.status) := by
  induction cs generalizing b with
  | nil => rfl
  | cons c cs ih =>
    rw [List.foldl_cons, ih, List.map_cons]
    unfold pickSt
    rw [List.foldl_cons]
    congr 1
    show some (if b.status = .notStarted then c.status else b.status) = _
    unfold mergeSt
    dsimp only
    split <;> rfl

/-! ### Reading the same steps oldest first -/

theorem replay_main (sid : Nat) (steps : List StepRec) (v : View) :
    steps.foldl (fun v s => v.apply (s.flows.get? sid)) v =
      (steps.filterMap (fun s => s.flows.get? sid)).foldl (fun v c => v.apply (some c)) v := by
  induction steps generalizing v with
  | nil => rfl
  | cons s steps ih =>
    rw [List.foldl_cons, ih, List.filterMap_cons]
    cases s.flows.get? sid with
    | none => rfl
    | some c => rfl

/-- A task that the replay shows as present: the newest change of it says so. -/
theorem replay_tasks_newest (cs : List FlowChg) (k : TaskId) (s : TaskStatus)
    (h : (cs.foldl (fun (v : View) c => v.apply (some c)) {}).tasks k = some s) :
    ∃ c l, (cs.reverse.filterMap (fun c => c.tasks.get? k)) = c :: l ∧ c.chg ≠ .delete ∧ c.status = s := by
  induction hr : cs.reverse generalizing cs with
  | nil =>
    rw [List.reverse_eq_nil_iff] at hr; subst hr; cases h
  | cons c ds ih =>
    have hcs : cs = ds.reverse ++ [c] := by rw [← List.reverse_reverse cs, hr]; simp
    rw [hcs, List.foldl_append] at h
    simp only [List.foldl_cons, List.foldl_nil, View.apply] at h
    rw [List.filterMap_cons]
    cases hk : c.tasks.get? k with
    | some x =>
      rw [hk] at h
      unfold applyChg at h
      dsimp only at h
      split at h
      · cases h
      · exact ⟨x, _, rfl, by assumption, Option.some.inj h⟩
    | none =>
      rw [hk] at h
      unfold applyChg at h
      dsimp only at h
      split at h
      · cases h
      · exact ih ds.reverse h (by simp)

theorem replay_links_newest (cs : List FlowChg) (k : LinkId) (s : LinkStatus)
    (h : (cs.foldl (fun (v : View) c => v.apply (some c)) {}).links k = some s) :
    ∃ c l, (cs.reverse.filterMap (fun c => c.links.get? k)) = c :: l ∧ c.chg ≠ .delete ∧ c.status = s := by
  induction hr : cs.reverse generalizing cs with
  | nil =>
    rw [List.reverse_eq_nil_iff] at hr; subst hr; cases h
  | cons c ds ih =>
    have hcs : cs = ds.reverse ++ [c] := by rw [← List.reverse_reverse cs, hr]; simp
    rw [hcs, List.foldl_append] at h
    simp only [List.foldl_cons, List.foldl_nil, View.apply] at h
    rw [List.filterMap_cons]
    cases hk : c.links.get? k with
    | some x =>
      rw [hk] at h
      unfold applyChg at h
      dsimp only at h
      split at h
      · cases h
      · exact ⟨x, _, rfl, by assumption, Option.some.inj h⟩
    | none =>
      rw [hk] at h
      unfold applyChg at h
      dsimp only at h
      split at h
      · cases h
      · exact ih ds.reverse h (by simp)

/-- A status the replay shows: the first one that is not zero, newest first. -/
theorem replay_status_newest (cs : List FlowChg) (s : FlowStatus) (hs : s ≠ .notStarted)
    (h : (cs.foldl (fun (v : View) c => v.apply (some c)) {}).status = s) :
    pickSt .notStarted (cs.reverse.map (·.status)) (some .notStarted) = some s := by
  induction hr : cs.reverse generalizing cs with
  | nil =>
    rw [List.reverse_eq_nil_iff] at hr; subst hr; exact absurd h.symm hs
  | cons c ds ih =>
    have hcs : cs = ds.reverse ++ [c] := by rw [← List.reverse_reverse cs, hr]; simp
    rw [hcs, List.foldl_append] at h
    simp only [List.foldl_cons, List.foldl_nil, View.apply] at h
    rw [List.map_cons]
    show pickSt FlowStatus.notStarted (ds.map (·.status)) (some c.status) = some s
    by_cases hc : c.status = .notStarted
    · rw [if_pos hc] at h
      rw [hc]
      split at h
      · exact absurd h.symm hs
      · exact ih ds.reverse h (by simp)
    · rw [if_neg hc] at h
      rw [h]; exact pickSt_of_ne hs _

end Flow
