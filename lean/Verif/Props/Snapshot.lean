import Verif.Proofs.Snapshot
import Verif.Props.Record
import Verif.Spec.Plain

/-
C36: rebuilding a snapshot from recorded steps. C37: the snapshot of an instance. C38: recording modes.
-/

namespace Flow
open Spec

/-! ### C36 -/

/-- C36, tasks: if changes of subflows carry the number of the subflow, every task that a reader of the steps finds present with a status has this status in
the rebuilt snapshot. What is missing: deleted tasks are not omitted, see `C36_negation_deleted`; subflows, see
`C36_negation_subflow`. -/
theorem C36_tasks_partial {steps : List StepRec} (hm : Numbered steps) (hw : Maps steps) (id : String) {k : TaskId} {s : TaskStatus}
    (h : (replay 0 steps).tasks k = some s) (hs : s ≠ .notStarted) :
    (stepsToSnapshot id steps).base.tasks.get? k = some s := by
  have hn : ∀ c ∈ (mainChanges steps).reverse, c.tasks.keys.Nodup := by
    intro c hc
    obtain ⟨st, h1, h2⟩ := List.mem_filterMap.1 (List.mem_reverse.1 hc)
    exact ((hw st h1).2 _ (AMap.mem_of_get? h2)).2.1
  show (rebuild steps).base.tasks.get? k = some s
  rw [rebuild_base hm hw, base_tasks _ hn]
  unfold replay at h
  rw [replay_main] at h
  obtain ⟨c, l, h1, _, h3⟩ := replay_tasks_newest _ _ _ h
  have h4 : (mainChanges steps).reverse.filterMap (fun c => (c.tasks.get? k).map (·.status)) = s :: l.map (·.status) := by
    have : (mainChanges steps).reverse.filterMap (fun c => (c.tasks.get? k).map (·.status)) =
        ((mainChanges steps).reverse.filterMap (fun c => c.tasks.get? k)).map (·.status) := by
      rw [List.map_filterMap]
    rw [this]
    show List.map _ (List.filterMap _ (List.filterMap (fun s => s.flows.get? 0) steps).reverse) = _
    rw [h1, List.map_cons, h3]
  rw [h4]
  exact pickSt_of_ne hs _

/-- C36, links: as for tasks. -/
theorem C36_links_partial {steps : List StepRec} (hm : Numbered steps) (hw : Maps steps) (id : String) {k : LinkId} {s : LinkStatus}
    (h : (replay 0 steps).links k = some s) (hs : s ≠ .unset) :
    (stepsToSnapshot id steps).base.links.get? k = some s := by
  have hn : ∀ c ∈ (mainChanges steps).reverse, c.links.keys.Nodup := by
    intro c hc
    obtain ⟨st, h1, h2⟩ := List.mem_filterMap.1 (List.mem_reverse.1 hc)
    exact ((hw st h1).2 _ (AMap.mem_of_get? h2)).2.2
  show (rebuild steps).base.links.get? k = some s
  rw [rebuild_base hm hw, base_links _ hn]
  unfold replay at h
  rw [replay_main] at h
  obtain ⟨c, l, h1, _, h3⟩ := replay_links_newest _ _ _ h
  have h4 : (mainChanges steps).reverse.filterMap (fun c => (c.links.get? k).map (·.status)) = s :: l.map (·.status) := by
    have : (mainChanges steps).reverse.filterMap (fun c => (c.links.get? k).map (·.status)) =
        ((mainChanges steps).reverse.filterMap (fun c => c.links.get? k)).map (·.status) := by
      rw [List.map_filterMap]
    rw [this]
    show List.map _ (List.filterMap _ (List.filterMap (fun s => s.flows.get? 0) steps).reverse) = _
    rw [h1, List.map_cons, h3]
  rw [h4]
  exact pickSt_of_ne hs _

/-- C36, status: if changes of subflows carry the number of the subflow, the status of the flow is the latest recorded one. -/
theorem C36_status_partial {steps : List StepRec} (hm : Numbered steps) (hw : Maps steps) (id : String)
    (hs : (replay 0 steps).status ≠ .notStarted) :
    (stepsToSnapshot id steps).base.status = (replay 0 steps).status := by
  show (rebuild steps).base.status = _
  rw [rebuild_base hm hw]
  apply Option.some.inj
  rw [base_status]
  have : replay 0 steps = (mainChanges steps).foldl (fun v c => v.apply (some c)) {} := by
    unfold replay; rw [replay_main]; rfl
  rw [this] at hs ⊢
  exact replay_status_newest _ _ hs rfl

/-- C36 fails for every attribute whose value changes: the snapshot contains the oldest recorded value. -/
theorem C36_negation_attrs {steps : List StepRec} (hm : Numbered steps) (hw : Maps steps) (id : String) (n : String) :
    ((stepsToSnapshot id steps).base.attrs.getD []).get? n = (attrValues steps n).head? := by
  have hn : ∀ c ∈ (mainChanges steps).reverse, c.attrs.keys.Nodup := by
    intro c hc
    obtain ⟨st, h1, h2⟩ := List.mem_filterMap.1 (List.mem_reverse.1 hc)
    exact ((hw st h1).2 _ (AMap.mem_of_get? h2)).1
  show ((rebuild steps).base.attrs.getD []).get? n = _
  rw [rebuild_base hm hw, base_attrs _ hn, List.filterMap_reverse, List.getLast?_reverse]
  unfold attrValues
  show ((List.filterMap _ _).head?).or none = _
  rw [Option.or_none]

/-- C36, attributes: an attribute that was recorded once, or always with the same value, has this value. What is missing:
attributes whose value changes, see `C36_negation_attrs`. -/
theorem C36_attrs_partial {steps : List StepRec} (hm : Numbered steps) (hw : Maps steps) (id : String) {n : String} {v : Val}
    (h : v ∈ attrValues steps n) (hv : ∀ w ∈ attrValues steps n, w = v) :
    ((stepsToSnapshot id steps).base.attrs.getD []).get? n = some v := by
  rw [C36_negation_attrs hm hw]
  cases ha : attrValues steps n with
  | nil => rw [ha] at h; cases h
  | cons x l => rw [ha] at hv; rw [List.head?_cons, hv x (by simp)]

/-- C36, address: if the recorded steps announce the main flow, always with the same address, the snapshot has this address. -/
theorem C36_uri_partial {steps : List StepRec} (hm : Numbered steps) (hw : Maps steps) (id : String) {u : String}
    (h : ∃ c ∈ mainChanges steps, c.newFlow = true) (hu : ∀ c ∈ mainChanges steps, c.newFlow = true → c.uri = u) :
    (stepsToSnapshot id steps).base.uri = u := by
  show (rebuild steps).base.uri = u
  rw [rebuild_base hm hw]
  have h1 : ∃ c ∈ (mainChanges steps).reverse, c.newFlow = true := by
    obtain ⟨c, hc, hn⟩ := h
    exact ⟨c, List.mem_reverse.2 hc, hn⟩
  have h2 : ∀ c ∈ (mainChanges steps).reverse, c.newFlow = true → c.uri = u := fun c hc => hu c (List.mem_reverse.1 hc)
  generalize (mainChanges steps).reverse = cs at h1 h2
  have h3 : ∀ (cs : List FlowChg) (b : SnapBase), (∀ c ∈ cs, c.newFlow = true → c.uri = u) →
      ((∃ c ∈ cs, c.newFlow = true) ∨ b.uri = u) → (cs.foldl SnapBase.updateFlow b).uri = u := by
    intro cs
    induction cs with
    | nil => exact fun b _ hb => hb.elim (fun ⟨_, hm, _⟩ => nomatch hm) (fun h => h)
    | cons c cs ih =>
      intro b hc hb
      rw [List.foldl_cons]
      refine ih _ (fun d hd => hc d (List.mem_cons_of_mem _ hd)) ?_
      show _ ∨ (if c.newFlow = true then c.uri else b.uri) = u
      by_cases hn : c.newFlow = true
      · rw [if_pos hn]; exact .inr (hc c (List.mem_cons_self ..) hn)
      · rw [if_neg hn]
        rcases hb with ⟨d, hd, hdn⟩ | hb
        · rcases List.mem_cons.1 hd with rfl | hd
          · exact absurd hdn hn
          · exact .inl ⟨d, hd, hdn⟩
        · exact .inr hb
  exact h3 cs {} h2 (.inl h1)

/-- Three steps of a flow: A is executed and sets an attribute, then B changes it. -/
def threeSteps : List StepRec :=
  recordedNew [
    [.flowCreated "u" .notStarted, .attrChange 0 "x" (.int 1), .setStatus 0 .active, .taskAdded 0 "u" "A" .notStarted,
     .taskUpdated 0 "u" "A" .ready, .itemAdded 1 "A"],
    [.itemRemoved 1 "A", .taskUpdated 0 "u" "A" .done, .attrChange 0 "x" (.int 2), .linkAdded 0 0 .unset, .linkUpdated 0 0 .true,
     .taskAdded 0 "u" "B" .notStarted, .taskUpdated 0 "u" "B" .ready, .itemAdded 2 "B", .taskAdded 0 "u" "C" .notStarted,
     .taskUpdated 0 "u" "C" .ready, .itemAdded 3 "C", .taskRemoved 0 "A"],
    [.itemRemoved 2 "B", .attrChange 0 "x" (.int 3), .taskUpdated 0 "u" "B" .done, .taskAdded 0 "u" "D" .notStarted,
     .taskUpdated 0 "u" "D" .ready, .itemAdded 4 "D", .taskRemoved 0 "B", .linkRemoved 0 0]]

def asInt : Val → Option Int
  | .int n => some n
  | _ => none

example : (replay 0 threeSteps).tasks "C" = some .ready ∧ (replay 0 threeSteps).status = .active := by decide
theorem threeSteps_main : Numbered threeSteps := by
  intro s hs p hp
  simp only [threeSteps, recordedNew, Tracker.steps, List.mem_cons, List.not_mem_nil, or_false] at hs
  rcases hs with rfl | rfl | rfl <;>
    (rcases List.mem_cons.1 hp with rfl | hp
     · rfl
     · cases hp)
theorem threeSteps_maps : Maps threeSteps := by
  intro s hs
  simp only [threeSteps, recordedNew, Tracker.steps, List.mem_cons, List.not_mem_nil, or_false] at hs
  rcases hs with rfl | rfl | rfl <;>
    (refine ⟨by decide, ?_⟩
     intro p hp
     rcases List.mem_cons.1 hp with rfl | hp
     · exact ⟨by decide, by decide, by decide⟩
     · cases hp)

example : ((mainChanges threeSteps).map (fun c => (c.newFlow, c.uri))) = [(true, "u"), (false, "u"), (false, "u")] ∧
    (stepsToSnapshot "1" threeSteps).base.uri = "u" := by decide

/-- C36 fails: the last value of attribute x is 3, the snapshot contains 1. -/
theorem C36_negation_attr_case : ((attrValues threeSteps "x").getLast?).bind asInt = some 3 ∧
    ((((stepsToSnapshot "1" threeSteps).base.attrs.getD []).get? "x").bind asInt) = some 1 := by decide

/-- C36 fails: the finished and deleted task A and the deleted link are in the snapshot. -/
theorem C36_negation_deleted : (replay 0 threeSteps).tasks "A" = none ∧ (replay 0 threeSteps).links 0 = none ∧
    (stepsToSnapshot "1" threeSteps).base.tasks.get? "A" = some .done ∧
    (stepsToSnapshot "1" threeSteps).base.links.get? 0 = some .true := by decide

/-- C36 fails: of the pending work items 3 and 4, in this order, the snapshot contains only 4. -/
theorem C36_negation_queue_lost : replayQueue threeSteps 3 = some "C" ∧ replayQueue threeSteps 4 = some "D" ∧
    (stepsToSnapshot "1" threeSteps).queue.map (·.id) = [4] := by decide

/-- C36 fails: with one added work item per step, the pending work is listed in reverse order. -/
theorem C36_negation_queue_order : ∃ steps, steps = recordedNew [[.itemAdded 1 "A"], [.itemAdded 2 "B"], [.itemAdded 3 "C"], [.itemRemoved 1 "A"]] ∧
    replayQueue steps 2 = some "B" ∧ replayQueue steps 3 = some "C" ∧ replayQueue steps 1 = none ∧
    (stepsToSnapshot "1" steps).queue.map (·.id) = [3, 2] := ⟨_, rfl, by decide⟩

/-- C36 fails: a finished work item is listed as pending. -/
theorem C36_negation_queue_finished : ∃ steps, steps = recordedNew [[.itemAdded 1 "A", .itemAdded 2 "B"], [.itemRemoved 1 "A"], [.itemRemoved 2 "B"]] ∧
    replayQueue steps 1 = none ∧ replayQueue steps 2 = none ∧ (stepsToSnapshot "1" steps).queue.map (·.id) = [1] := ⟨_, rfl, by decide⟩

/-- C36 fails: the call changes the attributes in the given steps. -/
theorem C36_negation_input_changed :
    ((mainChanges threeSteps)[2]?.bind (fun c => (c.attrs.get? "x").bind asInt)) = some 3 ∧
    ((mainChanges (stepsAfter threeSteps))[2]?.bind (fun c => (c.attrs.get? "x").bind asInt)) = some 1 := by decide

/-- C36 fails for subflows: no snapshot contains a subflow. -/
theorem C36_negation_subflow (id : String) (steps : List StepRec) : (stepsToSnapshot id steps).subflows = [] := rfl

/-- A subflow is created and later completes while the main flow is active. -/
def subflowSteps : List StepRec :=
  recordedNew [[.flowCreated "u" .notStarted, .setStatus 0 .active], [.subflowCreated 1 "v" "A" .notStarted, .setStatus 1 .active],
    [.setStatus 1 .completed]]

/-- C36 fails: the status of the subflow is reported as the status of the main flow. -/
theorem C36_negation_subflow_status : (replay 0 subflowSteps).status = .active ∧
    (stepsToSnapshot "1" subflowSteps).base.status = .completed := by decide

/-! ### C37 -/

/-- C37, part: the snapshot of a flow instance in any reachable state contains its status, its attributes, and its tasks and
links with their statuses, as they result from the events of the run. What is missing: pending work and subflows, see
`C37_negation`. -/
theorem C37_top_partial {env : Env} {e : Eng} (hr : Reachable env e) {I : Inst} (hI : e.insts[0]? = some I) :
    e.snapshot.id = e.id ∧ e.snapshot.base.status = lastFlow I.trace ∧
    (∀ n, (e.snapshot.base.attrs.getD []).get? n = I.attrs.get? n) ∧
    (∀ k, e.snapshot.base.tasks.get? k = (liveTask I.trace k).map (lastStatus I.trace)) ∧
    (∀ k, e.snapshot.base.links.get? k = liveLink I.trace k) := by
  have hok := (Eng.engOK_reachable hr).ok _ _ hI
  have hs : e.snapshot = { id := e.id, base := I.snapBase } := by unfold Eng.snapshot; rw [hI]
  rw [hs]
  refine ⟨rfl, hok.mirror.flow, ?_, ?_, hok.mirror.link⟩
  · intro n
    show ((if I.attrs = [] then none else some I.attrs : Option (AMap String Val)).getD []).get? n = _
    split
    · rename_i h; rw [h]; rfl
    · rfl
  · intro k
    rw [← hok.mirror.task]
    show AMap.get? (I.tasks.map (fun p => (p.1, ((I.objs[p.2]?).map (·.status)).getD .notStarted))) k = _
    have : ∀ (m : AMap TaskId Nat) (f : Nat → TaskStatus), AMap.get? (m.map (fun p => (p.1, f p.2))) k = (m.get? k).map f := by
      intro m f
      induction m with
      | nil => rfl
      | cons p m ih =>
        simp only [List.map_cons, AMap.get?]
        split
        · rfl
        · exact ih
    rw [this I.tasks (fun o => ((I.objs[o]?).map (·.status)).getD .notStarted)]
    cases ho : I.tasks.get? k with
    | none => rfl
    | some o =>
      obtain ⟨ob, h1, _⟩ := hok.tasks k o ho
      simp [h1, hok.mirror.stat o ob h1]

/-- A flow "v" with one task B. -/
def subEnv : Env :=
  { plainEnv with defs := fun u => if u = "v" then .ok (some { name := "g", main := ⟨[tk "B"], []⟩ }) else .ok none }

/-- A state in which task A has started the subflow "v" and B is scheduled. -/
def inSubflow : Eng :=
  Eng.run subEnv (Eng.init subEnv "1" "u" { name := "f", main := ⟨[{ tk "A" with act := .subflow "v" }], []⟩ } []) 1

/-- C37 fails: there are pending work items and live subflows, and no snapshot ever contains any. -/
theorem C37_negation : (∃ env e, Reachable env e ∧ e.queue ≠ [] ∧ e.subflows ≠ []) ∧
    ∀ e : Eng, e.snapshot.queue = [] ∧ e.snapshot.subflows = [] := by
  refine ⟨⟨subEnv, inSubflow, ⟨_, _, _, _, _, rfl⟩, ?_, ?_⟩, ?_⟩
  · decide
  · decide
  · intro e
    unfold Eng.snapshot
    split <;> exact ⟨rfl, rfl⟩

example : (dia.snapshot.base.tasks.map (·.2)).length ≠ 0 := by decide

/-! ### C38 -/

def isStep : Rec → Bool
  | .step _ => true
  | _ => false

/-- C38: at each recording, a step is recorded exactly in the modes step, debugger and full, and a snapshot of the current
state exactly in the modes snapshot and full; nothing is recorded twice, also not by the next recording: the changes that were
recorded are forgotten, and others are kept. -/
theorem C38_recorded (m : Mode) (e : Eng) (t : Tracker) :
    ((recordState m e t).1.filter isStep).length = (if m ∈ [Mode.step, .debugger, .full] then 1 else 0) ∧
    ((recordState m e t).1.filter (fun r => !isStep r)).length = (if m ∈ [Mode.snapshot, .full] then 1 else 0) ∧
    (∀ s, .snapshot s ∈ (recordState m e t).1 → s = e.snapshot) ∧ (∀ s, .step s ∈ (recordState m e t).1 → s = t.cur) ∧
    (if m ∈ [Mode.step, .debugger, .full] then (recordState m e t).2.cur.flows = [] ∧ (recordState m e t).2.cur.queue = []
     else (recordState m e t).2 = t) := by
  refine ⟨?_, ?_, ?_, ?_, ?_⟩
  · cases m <;> rfl
  · cases m <;> rfl
  · intro s h; cases m <;> simp_all [recordState, Mode.recordSteps, Mode.recordSnapshot]
  · intro s h; cases m <;> simp_all [recordState, Mode.recordSteps, Mode.recordSnapshot, Tracker.extract]
  · cases m <;> first | exact ⟨rfl, rfl⟩ | rfl

/-- The documented names. -/
def modeNames : List (String × Mode) :=
  [("off", .off), ("debugger", .debugger), ("step", .step), ("full", .full), ("snapshot", .snapshot)]

/-- C38: a mode name is understood exactly if it is one of the documented names, up to case, and then means this mode. -/
theorem C38_names (lower : String → String) (m : String) (k : Mode) :
    toRecordingMode lower m = (k, none) ↔ (lower m, k) ∈ modeNames := by
  unfold toRecordingMode
  have h : Mode.ofName (lower m) = some k ↔ (lower m, k) ∈ modeNames := by
    unfold Mode.ofName modeNames
    split <;> rename_i heq <;> simp_all <;> exact eq_comm
  cases hm : Mode.ofName (lower m) with
  | some k' => rw [← h, hm]; simp
  | none => rw [← h, hm]; simp

/-- C38: the mode that is used after the action has been initialised; without a mode the older settings decide. -/
theorem C38_initialised_partial (lower : String → String) (fold : String → Bool) (s : RtSettings) :
    (∀ m k, s.mode = some m → (lower m, k) ∈ modeNames → (initAction lower fold s).mode = k ∧ (initAction lower fold s).finished = true) ∧
    (s.mode = none → (initAction lower fold s).finished = true ∧
      ((initAction lower fold s).mode.recordSteps = fold s.stepMode) ∧ ((initAction lower fold s).mode.recordSnapshot = fold s.snapshotMode)) := by
  constructor
  · intro m k h1 h2
    have := (C38_names lower m k).2 h2
    unfold initAction
    rw [h1]
    dsimp only
    rw [this]
    exact ⟨rfl, rfl⟩
  · intro h
    unfold initAction
    rw [h]
    refine ⟨rfl, ?_, ?_⟩ <;> cases fold s.stepMode <;> cases fold s.snapshotMode <;> rfl

/-- C38 fails: an unknown mode name is not rejected. Initialisation reports no error, although it stops before the flow
manager is installed. -/
theorem C38_negation (lower : String → String) (fold : String → Bool) (s : RtSettings) (m : String) (hm : s.mode = some m)
    (hu : ∀ k, (lower m, k) ∉ modeNames) : (initAction lower fold s).err = none ∧ (initAction lower fold s).finished = false := by
  unfold initAction
  rw [hm]
  dsimp only
  cases h : toRecordingMode lower m with
  | mk k o =>
    cases o with
    | none => exact absurd ((C38_names lower m k).1 h) (hu k)
    | some e => exact ⟨rfl, rfl⟩

example : ("full", Mode.full) ∈ modeNames := by decide
example : ∀ k, ("steps", k) ∉ modeNames := by intro k; simp [modeNames]

end Flow
