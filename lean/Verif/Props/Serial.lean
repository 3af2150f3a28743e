import Verif.Proofs.Serial

/-
C31-C33: serialization of a running instance, work items after a restore, and restart.
-/

namespace Flow

open Spec

/-! ### C31 -/

/-- The document of a reachable state can be restored exactly if every pending work item belongs to a running flow
instance. -/
theorem C31_restorable {env : Env} {e : Eng} (hr : Reachable env e) {s : Ser} (hs : e.marshal = some s) :
    s.unmarshal.isSome ↔ ∀ w ∈ e.queue, Running e w.inst := by
  have ok := Eng.engOK_reachable hr
  unfold Eng.marshal at hs
  split at hs
  · cases hs
  rename_i I hI
  cases hs
  have hq := restoreQueue_isSome (top := I.marshal.restore) (subs := restoreSubs ((List.range e.insts.length).filterMap (fun k => ((e.subflows.get? k).bind (fun j => e.insts[j]?)).map Inst.marshal))) (e.queue.map e.itemOf)
  have h1 : ∀ x : Ser, x.unmarshal.isSome ↔ (restoreQueue x.top.restore (restoreSubs x.subs) x.queue).isSome := by
    intro x; unfold Ser.unmarshal; split
    · rename_i h; rw [h]; simp
    · rename_i h; rw [h]; simp
  rw [h1]
  refine hq.trans ⟨fun h w hw => ?_, fun h x hx => ?_⟩
  · have := h _ (List.mem_map.2 ⟨w, hw, rfl⟩)
    rw [Eng.itemOf_eq ok hw, restoreSubs_get? ok] at this
    rcases this with h2 | h2
    · exact Or.inl h2
    · right
      cases hk : e.subflows.get? w.inst with
      | none => simp [hk] at h2
      | some j => exact ⟨j, rfl⟩
  · obtain ⟨w, hw, rfl⟩ := List.mem_map.1 hx
    rw [Eng.itemOf_eq ok hw, restoreSubs_get? ok]
    rcases h w hw with h2 | ⟨j, h2⟩
    · exact Or.inl h2
    · right
      obtain ⟨_, _, h3⟩ := ok.sub _ _ h2
      obtain ⟨J, hJ⟩ : ∃ J, e.insts[j]? = some J := ⟨_, List.getElem?_eq_getElem h3⟩
      simp [h2, hJ]

/-- C31, part: if the document of a reachable state can be restored, the restored instance has the same identifier; the same
status, attributes, tasks and links of the main flow and of every running subflow; no other subflow; and the same pending
work in the same order. What is missing: the document cannot always be restored (`C31_restorable`, `C31_negation_panic`),
and the state it describes is not complete (`C31_negation_host`, `C31_negation_task`). -/
theorem C31_restored_partial {env : Env} {e : Eng} (hr : Reachable env e) {I : Inst} (hI : e.insts[0]? = some I) {s : Ser} {r : Restored}
    (hs : e.marshal = some s) (hu : s.unmarshal = some r) :
    r.id = e.id ∧ Faithful r.top I ∧
    (∀ (k j : Nat) (J : Inst), e.subflows.get? k = some j → e.insts[j]? = some J → ∃ R, r.subs.get? k = some R ∧ Faithful R J) ∧
    (∀ k, e.subflows.get? k = none → r.subs.get? k = none) ∧
    pendingR r = pending e := by
  have ok := Eng.engOK_reachable hr
  unfold Eng.marshal at hs
  rw [hI] at hs
  cases hs
  unfold Ser.unmarshal at hu
  split at hu
  · cases hu
  rename_i q hq
  cases hu
  refine ⟨rfl, sameInst_restore (ok.ok _ _ hI), fun k j J hk hJ => ?_, fun k hk => ?_, ?_⟩
  · refine ⟨J.marshal.restore, ?_, sameInst_restore (ok.ok _ _ hJ)⟩
    show AMap.get? (restoreSubs _) k = _
    rw [restoreSubs_get? ok, hk]
    simp [hJ]
  · show AMap.get? (restoreSubs _) k = _
    rw [restoreSubs_get? ok, hk]; rfl
  · obtain ⟨h1, h2⟩ := restoreQueue_some hq
    show q.map _ = e.queue.map _
    apply List.ext_getElem?
    intro p
    rw [List.getElem?_map, List.getElem?_map]
    cases hw : e.queue[p]? with
    | none =>
      have : q[p]? = none := by rw [List.getElem?_eq_none_iff] at hw ⊢; simp at h1; omega
      rw [this]; rfl
    | some w =>
      obtain ⟨x, hx⟩ : ∃ x, q[p]? = some x := by
        obtain ⟨h3, _⟩ := List.getElem?_eq_some_iff.1 hw
        exact ⟨_, List.getElem?_eq_getElem (by simp at h1; omega)⟩
      have h3 := h2 p (e.itemOf w) x (by simp [hw]) hx
      rw [Eng.itemOf_eq ok (List.mem_of_getElem? hw)] at h3
      rw [hx]
      unfold SnapItem.restore at h3
      dsimp only at h3
      split at h3
      · split at h3
        · cases h3
        · cases h3; rfl
      · cases h3; rfl

/-- A work item of the restored instance has its task instance exactly if the task is still in the table of its flow
instance. -/
theorem C31_items {env : Env} {e : Eng} (hr : Reachable env e) {s : Ser} {r : Restored}
    (hs : e.marshal = some s) (hu : s.unmarshal = some r) {p : Nat} {w : WorkItem} {x : RItem}
    (hw : e.queue[p]? = some w) (hx : r.queue[p]? = some x) {J : Inst} (hJ : e.insts[w.inst]? = some J) :
    x.task = if (liveTask J.trace x.taskId).isSome then some (w.inst, x.taskId) else none := by
  have ok := Eng.engOK_reachable hr
  unfold Eng.marshal at hs
  split at hs
  · cases hs
  rename_i I hI
  cases hs
  unfold Ser.unmarshal at hu
  split at hu
  · cases hu
  rename_i q hq
  cases hu
  obtain ⟨_, h2⟩ := restoreQueue_some hq
  have h3 := h2 p (e.itemOf w) x (by simp [hw]) hx
  rw [Eng.itemOf_eq ok (List.mem_of_getElem? hw)] at h3
  unfold SnapItem.restore at h3
  dsimp only at h3
  have fin : ∀ (T : Inst) (t : TaskId) (n : Nat), InstOK T →
      (T.marshal.restore.tasks.get? t).map (fun _ => (n, t)) = if (liveTask T.trace t).isSome then some (n, t) else none := by
    intro T t n okT
    rw [(sameInst_restore okT).2.2.2.1 t]
    cases liveTask T.trace t <;> rfl
  split at h3
  · split at h3
    · cases h3
    · rename_i R hR
      cases h3
      rw [restoreSubs_get? ok] at hR
      obtain ⟨T, hT, hTR⟩ := Option.map_eq_some_iff.1 hR
      obtain ⟨j, hj, hTj⟩ := Option.bind_eq_some_iff.1 hT
      have hjw : w.inst = j := (ok.sub _ _ hj).1
      rw [← hjw, hJ] at hTj
      cases hTj
      subst hTR
      exact fin J _ _ (ok.ok _ _ hJ)
  · rename_i h0
    cases h3
    have h0' : w.inst = 0 := by omega
    rw [h0', hI] at hJ
    cases hJ
    rw [h0']
    exact fin _ _ _ (ok.ok _ _ hI)

/-- The parallel tasks B and C of the subflow "v"; B returns explicitly. -/
def earlyReturn : Env :=
  { tableEnv (fun t => if t = "B" then { ret := some (some [], none) } else {}) (fun _ => .ok true) with
    defs := fun u => if u = "v" then .ok (some { name := "g", main := ⟨[tk "B", tk "C"], []⟩ }) else .ok none }

/-- The state after B has completed the subflow while C is pending. -/
def returned : Eng :=
  Eng.run earlyReturn (Eng.init earlyReturn "1" "u" { name := "f", main := ⟨[{ tk "A" with act := .subflow "v" }], []⟩ } []) 2

/-- C31 fails: a reachable state whose document cannot be restored; the work item of C belongs to a subflow that has
completed. -/
theorem C31_negation_panic : Reachable earlyReturn returned ∧ pending returned = [(3, 1, "C"), (4, 0, "A")] ∧
    (returned.marshal.bind Ser.unmarshal).isNone :=
  ⟨⟨_, _, _, _, _, rfl⟩, by decide, by decide⟩

/-- Two tasks that start the same subflow "v"; task number `first` is taken first. -/
def twoHosts (first : Nat) : Env :=
  { plainEnv with
    defs := fun u => if u = "v" then .ok (some { name := "g", main := ⟨[tk "B"], []⟩ }) else .ok none
    pick := fun e => if e.stepID = 0 then first else 0 }

/-- The state after both have started it. -/
def hosted (first n : Nat) : Eng :=
  Eng.run (twoHosts first) (Eng.init (twoHosts first) "1" "u"
    { name := "f", main := ⟨[{ tk "A1" with act := .subflow "v" }, { tk "A2" with act := .subflow "v" }], []⟩ } []) n

/-- The document of the state. -/
def hostedDoc : Ser :=
  { id := "1"
    top := ⟨0, .active, "u", ctx "f" "1" "" "", [("A1", .waiting), ("A2", .waiting)], []⟩
    queue := [⟨3, 1, "B"⟩, ⟨4, 2, "B"⟩]
    subs := [⟨1, .active, "v", ctx "g" "1-1" "f" "1", [("B", .ready)], []⟩, ⟨2, .active, "v", ctx "g" "1-2" "f" "1", [("B", .ready)], []⟩] }
where
  ctx (name id parent parentId : String) : AMap String Val :=
    [("_fctx.FlowName", .str name), ("_fctx.FlowId", .str id), ("_fctx.AppName", .str ""), ("_fctx.AppVersion", .str ""),
     ("_fctx.TraceId", .str ""), ("_fctx.SpanId", .str ""), ("_fctx.ParentFlowName", .str parent), ("_fctx.ParentFlowId", .str parentId)]

/-- C31 fails: two reachable states have the same document although the first subflow belongs to task A1 in one and to task
A2 in the other; after the next step A1 or A2 is resumed. -/
theorem C31_negation_host : Reachable (twoHosts 0) (hosted 0 2) ∧ Reachable (twoHosts 1) (hosted 1 2) ∧
    (hosted 0 2).marshal = some hostedDoc ∧ (hosted 1 2).marshal = some hostedDoc ∧
    pending (hosted 0 3) = [(4, 2, "B"), (5, 0, "A1")] ∧ pending (hosted 1 3) = [(4, 2, "B"), (5, 0, "A2")] :=
  ⟨⟨_, _, _, _, _, rfl⟩, ⟨_, _, _, _, _, rfl⟩, rfl, rfl, by decide, by decide⟩

/-- A fails, B is scheduled, and H is the error handler. -/
def clearedEnv : Env := tableEnv (fun t => if t = "A" then { res := .err (.plain "boom") } else {}) (fun _ => .ok true)

/-- The state after the failure of A. -/
def clearedRun : Eng :=
  Eng.run clearedEnv (Eng.init clearedEnv "1" "u" { name := "f", main := ⟨[tk "A", tk "B"], []⟩, eh := some ⟨[tk "H"], []⟩ } []) 2

/-- C31 fails: after the error handler has started, the pending work item of B is restored without its task instance. -/
theorem C31_negation_task : Reachable clearedEnv clearedRun ∧ pending clearedRun = [(2, 0, "B"), (3, 0, "H")] ∧
    (clearedRun.marshal.bind Ser.unmarshal).map (·.queue.map (·.task)) = some [none, some (0, "H")] :=
  ⟨⟨_, _, _, _, _, rfl⟩, by decide, by decide⟩

/-- The hypotheses of the theorems above hold for a state with a running subflow and pending work. -/
example : Reachable (twoHosts 0) (hosted 0 2) ∧ (((hosted 0 2).marshal.bind Ser.unmarshal).map pendingR) = some [(3, 1, "B"), (4, 2, "B")] :=
  ⟨⟨_, _, _, _, _, rfl⟩, by decide⟩

/-! ### C32 -/

/-- Scheduling tasks one after the other. -/
def scheduleAll (r : Restored) (l : List (Nat × TaskId)) : Restored := l.foldl (fun r p => r.schedule p.1 p.2) r

theorem scheduleAll_ids (r : Restored) (l : List (Nat × TaskId)) :
    (scheduleAll r l).queue.map (·.id) = r.queue.map (·.id) ++ (List.range l.length).map (fun n => r.wiCounter + 1 + n) := by
  induction l generalizing r with
  | nil => simp [scheduleAll]
  | cons p l ih =>
    show (scheduleAll (r.schedule p.1 p.2) l).queue.map (·.id) = _
    rw [ih, List.length_cons, List.range_succ_eq_map]
    simp only [Restored.schedule, List.map_append, List.map_cons, List.map_nil, List.append_assoc, List.map_map]
    congr 1
    simp only [List.cons_append, List.nil_append, List.cons.injEq]
    refine ⟨trivial, List.map_congr_left fun n _ => ?_⟩
    simp only [Function.comp, Nat.succ_eq_add_one]; omega

/-- C32, part: after restoring a reachable state with `l.length` newly scheduled tasks, the identifiers of all work items are
distinct exactly if every restored work item has an identifier greater than `l.length`. What is missing: the claim
without this condition is false, see `C32_negation`. -/
theorem C32_unique_partial {env : Env} {e : Eng} (hr : Reachable env e) {I : Inst} (hI : e.insts[0]? = some I) {s : Ser} {r : Restored}
    (hs : e.marshal = some s) (hu : s.unmarshal = some r) (l : List (Nat × TaskId)) :
    ((scheduleAll r l).queue.map (·.id)).Nodup ↔ ∀ w ∈ e.queue, l.length < w.id := by
  have ok := Eng.engOK_reachable hr
  have hp := (C31_restored_partial hr hI hs hu).2.2.2.2
  have hids : r.queue.map (·.id) = e.queue.map (·.id) := by
    have := congrArg (List.map (·.1)) hp
    simpa [pendingR, pending, List.map_map, Function.comp_def] using this
  have hc : r.wiCounter = 0 := by
    unfold Ser.unmarshal at hu
    split at hu
    · cases hu
    · cases hu; rfl
  have hpos : ∀ w ∈ e.queue, 0 < w.id := by
    intro w hw
    exact (ok.qctr w ((ok.qmem w).1 hw).1).1
  rw [scheduleAll_ids, hids, hc, List.nodup_append]
  constructor
  · rintro ⟨_, _, h⟩ w hw
    by_cases hlt : l.length < w.id
    · exact hlt
    · exfalso
      have := hpos w hw
      exact h w.id (List.mem_map.2 ⟨w, hw, rfl⟩) w.id (List.mem_map.2 ⟨w.id - 1, List.mem_range.2 (by omega), by omega⟩) rfl
  · intro h
    refine ⟨ok.qnodup, ?_, ?_⟩
    · refine List.Pairwise.map _ (fun a b hab => ?_) List.nodup_range
      omega
    · intro a ha b hb hab
      obtain ⟨w, hw, rfl⟩ := List.mem_map.1 ha
      obtain ⟨n, hn, rfl⟩ := List.mem_map.1 hb
      have := h w hw
      have := List.mem_range.1 hn
      omega

/-- C32 fails in every restorable state with pending work: once as many tasks have been scheduled as the identifier of a
pending work item says, two work items have the same identifier. -/
theorem C32_negation {env : Env} {e : Eng} (hr : Reachable env e) {I : Inst} (hI : e.insts[0]? = some I) {s : Ser} {r : Restored}
    (hs : e.marshal = some s) (hu : s.unmarshal = some r) {w : WorkItem} (hw : w ∈ e.queue) (l : List (Nat × TaskId)) (hl : l.length = w.id) :
    ¬ ((scheduleAll r l).queue.map (·.id)).Nodup := by
  rw [C32_unique_partial hr hI hs hu l]
  intro h
  have := h w hw
  omega

/-- Three parallel tasks after the start. -/
def threeTasks : Eng := Eng.init plainEnv "1" "u" { name := "f", main := ⟨[tk "A", tk "B", tk "C"], []⟩ } []

/-- C32 fails: the first work item scheduled after restoring this state has the identifier of the pending one of A. -/
theorem C32_negation_case : Reachable plainEnv threeTasks ∧
    ((threeTasks.marshal.bind Ser.unmarshal).map (fun r => (scheduleAll r [(0, "D")]).queue.map (fun w => (w.id, w.taskId)))) =
      some [(1, "A"), (2, "B"), (3, "C"), (1, "D")] :=
  ⟨⟨_, _, _, _, 0, rfl⟩, by decide⟩

/-! ### C53 -/

/-- Starting subflows one after the other: their identifiers and the state after it. -/
def startSubs (r : Restored) : List String → List Nat × Restored
  | [] => ([], r)
  | u :: us => ((r.newSub u).1 :: (startSubs (r.newSub u).2 us).1, (startSubs (r.newSub u).2 us).2)

theorem restoreSubs_bound (l : List SerInst) (m : AMap Nat RInst) (c : Nat) (hm : ∀ k ∈ AMap.keys m, k ≤ c) :
    ∀ k ∈ AMap.keys (l.foldl (fun m s => m.set s.subflowId s.restore) m), k ≤ l.foldl (fun m x => max m x.subflowId) c := by
  induction l generalizing m c with
  | nil => exact hm
  | cons x xs ih =>
    refine ih _ _ fun k hk => ?_
    rcases AMap.mem_keys_set.1 hk with rfl | h
    · exact Nat.le_max_right ..
    · exact Nat.le_trans (hm k h) (Nat.le_max_left ..)

/-- The identifiers in use are at most the counter. -/
def SubsBelow (r : Restored) : Prop := ∀ k R, r.subs.get? k = some R → k ≤ r.subflowCtr

theorem unmarshal_below {s : Ser} {r : Restored} (hu : s.unmarshal = some r) : SubsBelow r := by
  unfold Ser.unmarshal at hu
  split at hu
  · cases hu
  · cases hu
    intro k R h
    exact restoreSubs_bound s.subs [] 0 (fun _ h => nomatch h) k (AMap.get?_isSome_iff.1 (by exact Option.isSome_iff_exists.2 ⟨R, h⟩))

theorem startSubs_ok {r : Restored} (hb : SubsBelow r) (l : List String) :
    (startSubs r l).1.Nodup ∧ (∀ k ∈ (startSubs r l).1, r.subflowCtr < k ∧ (startSubs r l).2.subs.get? k ≠ none) ∧
    (startSubs r l).1.length = l.length ∧
    ∀ k R, r.subs.get? k = some R → (startSubs r l).2.subs.get? k = some R := by
  induction l generalizing r with
  | nil => exact ⟨List.nodup_nil, (fun _ h => nomatch h), rfl, fun _ _ h => h⟩
  | cons u us ih =>
    have hkeep : ∀ k R, r.subs.get? k = some R → (r.newSub u).2.subs.get? k = some R := by
      intro k R h
      show AMap.get? (AMap.set _ _ _) _ = _
      rw [AMap.get?_set, if_neg, h]
      intro e; have := hb k R h; omega
    have hb' : SubsBelow (r.newSub u).2 := by
      intro k R h
      have h : AMap.get? (AMap.set _ _ _) _ = _ := h
      rw [AMap.get?_set] at h
      show k ≤ r.subflowCtr + 1
      split at h
      · omega
      · have := hb k R h; omega
    obtain ⟨h1, h2, h3, h4⟩ := ih hb'
    refine ⟨List.nodup_cons.2 ⟨fun hm => ?_, h1⟩, ?_, congrArg (· + 1) h3, fun k R h => h4 k R (hkeep k R h)⟩
    · have := (h2 _ hm).1
      have : r.subflowCtr + 1 < r.subflowCtr + 1 := this
      omega
    · intro k hk
      rcases List.mem_cons.1 hk with rfl | hk
      · refine ⟨Nat.lt_succ_self _, fun hn => ?_⟩
        have : (startSubs (r.newSub u).2 us).2.subs.get? (r.subflowCtr + 1) = some { uri := u } :=
          h4 _ _ (by show AMap.get? (AMap.set _ _ _) _ = _; rw [AMap.get?_set, if_pos rfl])
        exact nomatch this.symm.trans hn
      · refine ⟨?_, (h2 k hk).2⟩
        have : r.subflowCtr + 1 < k := (h2 k hk).1
        omega

/-- C53, part: whatever the document, the subflows that are started after restoring it get distinct identifiers, none of
which belongs to a restored subflow, so that every restored subflow is kept as it is. What is missing: subflows that had
ended before the instance was written, see `C53_negation`. -/
theorem C53_unique_partial {s : Ser} {r : Restored} (hu : s.unmarshal = some r) (l : List String) :
    (startSubs r l).1.length = l.length ∧ (startSubs r l).1.Nodup ∧
    (∀ x ∈ s.subs, x.subflowId ∉ (startSubs r l).1) ∧ (∀ k ∈ (startSubs r l).1, 0 < k) ∧
    (∀ k R, r.subs.get? k = some R → (startSubs r l).2.subs.get? k = some R) ∧
    ∀ k ∈ (startSubs r l).1, (startSubs r l).2.subs.get? k ≠ none := by
  obtain ⟨h1, h2, h3, h4⟩ := startSubs_ok (unmarshal_below hu) l
  refine ⟨h3, h1, fun x hx hm => ?_, fun k hk => by have := (h2 k hk).1; omega, h4, fun k hk => (h2 k hk).2⟩
  have hlt := (h2 _ hm).1
  have hle : x.subflowId ≤ r.subflowCtr := by
    unfold Ser.unmarshal at hu
    split at hu
    · cases hu
    · cases hu
      have : ∀ (l : List SerInst) (c : Nat), c ≤ l.foldl (fun m x => max m x.subflowId) c ∧
          ∀ x ∈ l, x.subflowId ≤ l.foldl (fun m x => max m x.subflowId) c := by
        intro l
        induction l with
        | nil => exact fun c => ⟨Nat.le_refl _, (fun _ h => nomatch h)⟩
        | cons y ys ih =>
          intro c
          obtain ⟨i1, i2⟩ := ih (max c y.subflowId)
          refine ⟨Nat.le_trans (Nat.le_max_left ..) i1, fun x hx => ?_⟩
          rcases List.mem_cons.1 hx with rfl | hx
          · exact Nat.le_trans (Nat.le_max_right ..) i1
          · exact i2 x hx
      exact (this s.subs 0).2 x hx
  omega

/-- The subflow of the second task ends first. -/
def secondEnds : Env := { twoHosts 0 with pick := fun e => if e.stepID = 2 then 1 else 0 }

/-- The first subflow is running, the second one has completed and its task has finished. -/
def oneLeft : Eng :=
  Eng.run secondEnds (Eng.init secondEnds "1" "u"
    { name := "f", main := ⟨[{ tk "A1" with act := .subflow "v" }, { tk "A2" with act := .subflow "v" }], []⟩ } []) 3

/-- C53 fails: the subflow with the identifier 2 has completed; after restoring, the next subflow gets this identifier
again. -/
theorem C53_negation : Reachable secondEnds oneLeft ∧ oneLeft.insts.map (fun I => (I.subflowId, I.status)) = [(0, .active), (1, .active), (2, .completed)] ∧
    (oneLeft.marshal.bind Ser.unmarshal).map (fun r => (startSubs r ["v"]).1) = some [2] :=
  ⟨⟨_, _, _, _, _, rfl⟩, by decide, by decide⟩

example : (hostedDoc.unmarshal.map fun r => (startSubs r ["v", "v"]).1) = some [3, 4] := by decide

/-! ### C33 -/

/-- What a restart makes of the instance apart from the two rotations. -/
theorem restart_ok {defs : String → Except Err (Option Def)} {id : String} {k : Int} {r r' : Restored} {ok : Bool}
    (h : r.restart defs ok id k = .ok r') :
    (if 0 < k + 1 then ({ r with id := id, top := { r.top with status := .active } } : Restored).rotate.bind Restored.rotate
      else some { r with id := id, top := { r.top with status := .active } }) = some r' := by
  unfold Restored.restart at h
  split at h
  · rename_i d hd
    split at h
    · split at h
      · dsimp only at h
        split at h
        · rename_i hk
          rw [if_pos hk]
          split at h
          · cases h
          · rename_i r1 h1; cases h; exact h1
        · rename_i hk
          rw [if_neg hk]; cases h; rfl
      · cases h
    · cases h
  · cases h

/-- C33 for a resumed run: a restart that does not name a step to restart from keeps the pending work, its order and the
status of every task. (`Run` passes the step to restart from minus one.) -/
theorem C33_unnamed {defs : String → Except Err (Option Def)} {id : String} {k : Int} {r r' : Restored} {ok : Bool} (hk : k ≤ -1)
    (h : r.restart defs ok id k = .ok r') :
    r'.queue = r.queue ∧ (∀ t, r'.top.tasks.get? t = r.top.tasks.get? t) ∧ r'.subs = r.subs ∧ r'.id = id ∧ r'.top.status = .active := by
  have := restart_ok h
  rw [if_neg (by omega)] at this
  cases this
  exact ⟨rfl, fun _ => rfl, rfl, rfl, rfl⟩

/-- One rotation of the queue. -/
theorem rotate_cons {r r' : Restored} {w : RItem} {ws : List RItem} (hq : r.queue = w :: ws) (ht : w.task = some (0, w.taskId))
    (h : r.rotate = some r') : r' = { r.setStatus w.taskId .ready with queue := ws ++ [w] } := by
  unfold Restored.rotate at h
  rw [hq] at h
  dsimp only at h
  rw [ht] at h
  dsimp only at h
  rw [if_neg (by omega)] at h
  cases h; rfl

theorem rotate_nil {r : Restored} (hq : r.queue = []) : r.rotate = some r := by
  unfold Restored.rotate; rw [hq]

/-- What a restart does if all pending work belongs to tasks of the main flow: the first two work items go to the end of the
queue, and their tasks become ready. -/
theorem restart_named {defs : String → Except Err (Option Def)} {id : String} {k : Int} {r r' : Restored} {ok : Bool} (hk : 0 ≤ k)
    (ht : TopOnly r.queue) (h : r.restart defs ok id k = .ok r') :
    r'.queue = r.queue.drop 2 ++ r.queue.take 2 ∧ r'.id = id ∧ r'.top.status = .active ∧ r'.subs = r.subs ∧
    ∀ t, r'.top.tasks.get? t = if t ∈ (r.queue.take 2).map (·.taskId) then some .ready else r.top.tasks.get? t := by
  have h1 := restart_ok h
  rw [if_pos (by omega)] at h1
  obtain ⟨r1, h2, h3⟩ := Option.bind_eq_some_iff.1 h1
  cases hq : r.queue with
  | nil =>
    have e1 := rotate_nil (r := { r with id := id, top := { r.top with status := .active } }) hq
    have e2 := Option.some.inj (e1.symm.trans h2)
    subst e2
    have e3 := Option.some.inj (e1.symm.trans h3)
    subst e3
    simp [hq]
  | cons w ws =>
    have hw := ht w (by rw [hq]; exact List.mem_cons_self ..)
    have e1 := rotate_cons (r := { r with id := id, top := { r.top with status := .active } }) (w := w) (ws := ws) hq hw h2
    subst e1
    cases ws with
    | nil =>
      have e2 := rotate_cons (w := w) (ws := []) rfl hw h3
      subst e2
      refine ⟨rfl, rfl, rfl, rfl, fun t => ?_⟩
      simp only [Restored.setStatus, AMap.get?_set, List.take_succ_cons, List.take_nil, List.map_cons, List.map_nil, List.mem_singleton]
      by_cases hwt : w.taskId = t
      · simp [hwt]
      · simp [hwt, Ne.symm hwt]
    | cons v vs =>
      have hv := ht v (by rw [hq]; simp)
      have e2 := rotate_cons (w := v) (ws := vs ++ [w]) rfl hv h3
      subst e2
      refine ⟨by simp, rfl, rfl, rfl, fun t => ?_⟩
      simp only [Restored.setStatus, AMap.get?_set, List.take_succ_cons, List.take_zero, List.map_cons, List.map_nil, List.mem_cons,
        List.not_mem_nil, or_false]
      by_cases hwt : w.taskId = t
      · simp [hwt]
      · by_cases hvt : v.taskId = t
        · simp [hvt]
        · simp [hwt, hvt, Ne.symm hwt, Ne.symm hvt]

/-- C33, part: a restart from a step keeps all pending work if all of it belongs to tasks of the main flow. What is missing:
work items without task instance are lost (`C33_negation_lost`), work of subflows lets the restart panic
(`C33_negation_panic`). -/
theorem C33_kept_partial {defs : String → Except Err (Option Def)} {id : String} {k : Int} {r r' : Restored} {ok : Bool} (hk : 0 ≤ k)
    (ht : TopOnly r.queue) (h : r.restart defs ok id k = .ok r') : r'.queue.Perm r.queue := by
  rw [(restart_named hk ht h).1]
  exact List.perm_append_comm.trans (by rw [List.take_append_drop])

/-- C33, part: up to two pending work items keep their order. What is missing: more than two, see `C33_negation_order`. -/
theorem C33_order_partial {defs : String → Except Err (Option Def)} {id : String} {k : Int} {r r' : Restored} {ok : Bool} (hk : 0 ≤ k)
    (ht : TopOnly r.queue) (hl : r.queue.length ≤ 2) (h : r.restart defs ok id k = .ok r') : r'.queue = r.queue := by
  rw [(restart_named hk ht h).1, List.drop_eq_nil_of_le hl, List.take_of_length_le hl]; rfl

/-- C33, part: with one pending work item only its task changes its status, to ready. What is missing: with more work items the
second task changes too, see `C33_negation_status`. -/
theorem C33_status_partial {defs : String → Except Err (Option Def)} {id : String} {k : Int} {r r' : Restored} {ok : Bool} (hk : 0 ≤ k)
    (ht : TopOnly r.queue) {w : RItem} (hl : r.queue = [w]) (h : r.restart defs ok id k = .ok r') :
    r'.top.tasks.get? w.taskId = some .ready ∧ ∀ t, t ≠ w.taskId → r'.top.tasks.get? t = r.top.tasks.get? t := by
  have := (restart_named hk ht h).2.2.2.2
  rw [hl] at this
  refine ⟨by rw [this]; simp, fun t hne => ?_⟩
  rw [this]; simp [hne]

/-- C33 fails for more than two work items: the order changes. -/
theorem C33_negation_order {defs : String → Except Err (Option Def)} {id : String} {k : Int} {r r' : Restored} {ok : Bool} (hk : 0 ≤ k)
    (ht : TopOnly r.queue) (hl : 2 < r.queue.length) (hn : (r.queue.map (·.id)).Nodup) (h : r.restart defs ok id k = .ok r') :
    r'.queue ≠ r.queue := by
  rw [(restart_named hk ht h).1]
  match hq : r.queue, hl with
  | a :: b :: c :: q, _ =>
    intro he
    have : c = a := by simpa using congrArg List.head? he
    rw [hq] at hn
    subst this
    simp at hn

/-- The lookup of definition `d`. -/
def lookup (d : Def) : String → Except Err (Option Def) := fun _ => .ok (some d)

/-- Restart of the restored state `e` with definition `d` from step 1: the queue (identifiers and tasks) and the
statuses of the tasks, or `none` for a panic. -/
def restarted (d : Def) (e : Eng) : Option (List (Nat × TaskId) × List (TaskId × TaskStatus)) :=
  (e.marshal.bind Ser.unmarshal).bind (fun r =>
    match r.restart (lookup d) true "2" 0 with
    | .ok r => some (r.queue.map (fun w => (w.id, w.taskId)), r.top.tasks)
    | _ => none)

/-- C33 fails: A, B, C are pending in this order, and after the restart C, A, B. The hypotheses of `C33_negation_order` hold. -/
theorem C33_negation_order_case : Reachable plainEnv threeTasks ∧ pending threeTasks = [(1, 0, "A"), (2, 0, "B"), (3, 0, "C")] ∧
    (restarted { name := "f", main := ⟨[tk "A", tk "B", tk "C"], []⟩ } threeTasks).map (·.1) = some [(3, "C"), (1, "A"), (2, "B")] :=
  ⟨⟨_, _, _, _, 0, rfl⟩, by decide, by decide⟩

example : ∃ r, threeTasks.marshal.bind Ser.unmarshal = some r ∧ TopOnly r.queue ∧ (r.queue.map (·.id)).Nodup ∧ 2 < r.queue.length :=
  ⟨_, rfl, by unfold TopOnly; decide, by decide, by decide⟩

/-- C33 fails: the pending work item of B is lost. -/
theorem C33_negation_lost : Reachable clearedEnv clearedRun ∧ pending clearedRun = [(2, 0, "B"), (3, 0, "H")] ∧
    (restarted { name := "f", main := ⟨[tk "A", tk "B"], []⟩, eh := some ⟨[tk "H"], []⟩ } clearedRun).map (·.1) = some [(3, "H")] :=
  ⟨⟨_, _, _, _, _, rfl⟩, by decide, by decide⟩

/-- C33 fails for pending work of a subflow in general: if it is among the first two pending items, the restart of a known flow with
a step number panics. -/
theorem C33_negation_subflow {defs : String → Except Err (Option Def)} {id : String} {k : Int} {r : Restored} {d : Def}
    (hd : defs r.top.uri = .ok (some d)) (hk : 0 ≤ k) {w : RItem} {j : Nat} {t : TaskId} (hw : w.task = some (j, t)) (hj : 0 < j)
    (hq : r.queue.head? = some w ∨ r.queue[1]? = some w) : r.restart defs true id k = .panic := by
  unfold Restored.restart
  rw [hd]
  dsimp only
  rw [if_pos rfl]
  split
  · rw [if_pos (by omega)]
    have key : (({ r with id := id, top := { r.top with status := .active } } : Restored).rotate.bind Restored.rotate) = none := by
      have first : ∀ (r : Restored) (ws : List RItem), r.queue = w :: ws → r.rotate = none := by
        intro r ws hq
        unfold Restored.rotate
        rw [hq]; dsimp only; rw [hw]; dsimp only; rw [if_pos hj]
      generalize hr0 : ({ r with id := id, top := { r.top with status := .active } } : Restored) = r0
      have hq0 : r0.queue = r.queue := by subst hr0; rfl
      rw [← hq0] at hq
      cases hqq : r0.queue with
      | nil => rw [hqq] at hq; rcases hq with hq | hq <;> cases hq
      | cons a ws =>
        rw [hqq] at hq
        rcases hq with hq | hq
        · cases hq; rw [first r0 ws hqq]; rfl
        · cases ws with
          | nil => cases hq
          | cons b ws =>
            cases hq
            cases hr1 : r0.rotate with
            | none => rfl
            | some r1 =>
              show r1.rotate = none
              unfold Restored.rotate at hr1
              rw [hqq] at hr1
              dsimp only at hr1
              split at hr1
              · cases hr1; exact first _ ws rfl
              · split at hr1
                · cases hr1
                · cases hr1; exact first _ (ws ++ [a]) rfl
    rw [key]
  · rfl

/-- C33 fails: with pending work of a subflow the restart panics. -/
theorem C33_negation_panic : Reachable (twoHosts 0) (hosted 0 2) ∧ ((hosted 0 2).marshal.bind Ser.unmarshal).isSome ∧
    restarted { name := "f", main := ⟨[{ tk "A1" with act := .subflow "v" }, { tk "A2" with act := .subflow "v" }], []⟩ } (hosted 0 2) = none :=
  ⟨⟨_, _, _, _, _, rfl⟩, by decide, by decide⟩

/-- Task A has run the subflow "v" to its end and is to be resumed, D is pending. -/
def resumeEnv : Env := { twoHosts 0 with pick := fun e => e.stepID }

def toResume : Eng :=
  Eng.run resumeEnv (Eng.init resumeEnv "1" "u" { name := "f", main := ⟨[{ tk "A" with act := .subflow "v" }, tk "D"], []⟩ } []) 3

/-- C33 fails: D is restarted, and the waiting task A becomes ready too, so that it will start its subflow a second time
instead of finishing. -/
theorem C33_negation_status : Reachable resumeEnv toResume ∧ pending toResume = [(2, 0, "D"), (4, 0, "A")] ∧
    (toResume.marshal.bind Ser.unmarshal).map (·.top.tasks) = some [("A", .waiting), ("D", .ready)] ∧
    restarted { name := "f", main := ⟨[{ tk "A" with act := .subflow "v" }, tk "D"], []⟩ } toResume =
      some ([(2, "D"), (4, "A")], [("A", .ready), ("D", .ready)]) :=
  ⟨⟨_, _, _, _, _, rfl⟩, by decide, by decide, by decide⟩

/-- The hypotheses of the parts hold for this state. -/
example : ∃ r, toResume.marshal.bind Ser.unmarshal = some r ∧ TopOnly r.queue ∧ r.queue.length ≤ 2 :=
  ⟨_, rfl, by unfold TopOnly; decide, by decide⟩

end Flow
