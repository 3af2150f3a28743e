import Verif.Proofs.Events
import Verif.Props.Results
import Verif.Props.Run

/-!
Property theorems on the events that listeners receive: C55 to C60.
-/

namespace Flow
open Spec

variable {env : Env}

/-- What the listeners have been told about the tasks and about the status of flow instance `i`, newest first. -/
def taskNewsOf (e : Eng) (i : Nat) : List (Nat × TaskRef × String) :=
  match e.insts[i]? with
  | none => []
  | some I => taskNews I.posted
def flowNewsOf (e : Eng) (i : Nat) : List (String × Option Err) :=
  match e.insts[i]? with
  | none => []
  | some I => flowNews I.posted

/-! ### C55 -/

/-- C55: every event of a task has one of six names; a task is announced as Started or Skipped only after it was announced as
Scheduled, and as Completed, Failed or Waiting only after it was announced as Started. -/
theorem C55_task_events_in_order {e : Eng} (hr : Reachable env e) {i o : Nat} {t : TaskRef} {name : String}
    {post pre : List (Nat × TaskRef × String)} (hs : taskNewsOf e i = post ++ (o, t, name) :: pre) :
    name ∈ ["Scheduled", "Started", "Skipped", "Waiting", "Completed", "Failed"] ∧
    ∀ n, presupposes name = some n → (o, t, n) ∈ pre := by
  unfold taskNewsOf at hs
  cases hI : e.insts[i]? with
  | none => rw [hI] at hs; simp at hs
  | some I =>
    rw [hI] at hs
    obtain ⟨l1, p, l2, h1, h2, h3⟩ := filterMap_split _ hs
    obtain ⟨tr1, tr2, h4, h5⟩ := posted_split ((Eng.engOK_reachable hr).ok i I hI).mirror.posts h1
    cases p with
    | flow s err => cases h2
    | task o' t' s err =>
      cases h2
      have h6 : EvOK I.defn (.taskStatus o t s) tr2 := traces_in_order hr hI h4
      rw [← h3]
      cases s with
      | notStarted => exact absurd h6 id
      | entered => exact ⟨by simp [TaskStatus.eventName], fun n hn => by simp [presupposes, TaskStatus.eventName] at hn⟩
      | ready =>
        refine ⟨by simp [TaskStatus.eventName], fun n hn => ?_⟩
        simp [presupposes, TaskStatus.eventName] at hn
        subst hn
        exact news_of_trace h5 h6.2
      | skipped =>
        refine ⟨by simp [TaskStatus.eventName], fun n hn => ?_⟩
        simp [presupposes, TaskStatus.eventName] at hn
        subst hn
        exact news_of_trace h5 h6.2
      | waiting =>
        refine ⟨by simp [TaskStatus.eventName], fun n hn => ?_⟩
        simp [presupposes, TaskStatus.eventName] at hn
        subst hn
        exact news_of_trace (s := .ready) h5 h6
      | done =>
        refine ⟨by simp [TaskStatus.eventName], fun n hn => ?_⟩
        simp [presupposes, TaskStatus.eventName] at hn
        subst hn
        exact news_of_trace (s := .ready) h5 h6
      | failed =>
        refine ⟨by simp [TaskStatus.eventName], fun n hn => ?_⟩
        simp [presupposes, TaskStatus.eventName] at hn
        subst hn
        exact news_of_trace (s := .ready) h5 h6

-- non-trivial instance: A completes, B is skipped
example : (taskNewsOf (Eng.run (tableEnv (fun _ => {}) (fun _ => .ok false)) (Eng.init (tableEnv (fun _ => {}) (fun _ => .ok false)) "1" "u"
      { name := "f", main := ⟨[tk "A", tk "B"], [⟨0, "A", "B", .expression, ""⟩]⟩ } []) 20) 0).map (fun x => (x.2.1.id, x.2.2)) =
    [("B", "Skipped"), ("B", "Skipped"), ("B", "Scheduled"), ("A", "Completed"), ("A", "Started"), ("A", "Scheduled")] := by decide

/-! ### C56 -/

/-- C56, first part: the first event of every flow instance is Started; afterwards it is only announced as Completed or Failed.

Partial: the end may be announced more than once (`C56_negation`). -/
theorem C56_started_first_partial {e : Eng} (hr : Reachable env e) {i : Nat} {I : Inst} (hI : e.insts[i]? = some I) :
    ∃ rest, flowNewsOf e i = rest ++ [("Started", none)] ∧ ∀ x ∈ rest, x.1 = "Completed" ∨ x.1 = "Failed" := by
  have hst : Eng.Stable (fun I => ∃ rest, flowNews I.posted = rest ++ [("Started", none)] ∧ ∀ x ∈ rest, x.1 = "Completed" ∨ x.1 = "Failed") := by
    have push : ∀ {I : Inst} (s : FlowStatus), s = .completed ∨ s = .failed →
        (∃ rest, flowNews I.posted = rest ++ [("Started", none)] ∧ ∀ x ∈ rest, x.1 = "Completed" ∨ x.1 = "Failed") →
        ∃ rest, flowNews (I.setFlowStatus s).posted = rest ++ [("Started", none)] ∧ ∀ x ∈ rest, x.1 = "Completed" ∨ x.1 = "Failed" := by
      rintro I s hs ⟨rest, h1, h2⟩
      refine ⟨(s.eventName, if s = .failed then I.returnError else none) :: rest, ?_, ?_⟩
      · show _ :: flowNews I.posted = _
        rw [h1]; rfl
      · intro x hx
        rcases List.mem_cons.1 hx with h | h
        · rw [h]; rcases hs with rfl | rfl
          · exact Or.inl rfl
          · exact Or.inr rfl
        · exact h2 x h
    constructor
    · intro I I' hc h; rw [flowNews_calm hc.flows]; exact h
    · intro o I I' hc h; rw [hc.posted]; exact h
    · intro d uri k h a; exact ⟨[], rfl, fun x hx => nomatch hx⟩
    · intro I h; exact push _ (Or.inl rfl) h
    · intro I h; exact push _ (Or.inr rfl) h
    · intro I h _ _; exact h
    · intro I h _ _; exact push (I := { I with handling := true }) _ (Or.inr rfl) h
    · intro I err h _; exact h
  unfold flowNewsOf
  rw [hI]
  exact hst.reachable hr i I hI

/-- A flow in which both successors of A are skipped. -/
def bothSkipped : Def :=
  { name := "f", main := ⟨[tk "A", tk "B", tk "C"], [⟨0, "A", "B", .expression, ""⟩, ⟨1, "A", "C", .expression, ""⟩]⟩ }
def noneFollowed : Env := tableEnv (fun _ => {}) (fun _ => .ok false)

/-- C56 fails: a flow whose task has two successors that are both skipped is announced as Completed twice, the first time
before the second successor was announced at all. -/
theorem C56_negation :
    (flowNewsOf (Eng.run noneFollowed (Eng.init noneFollowed "1" "u" bothSkipped []) 20) 0).map (·.1) = ["Completed", "Completed", "Started"] ∧
    ∃ n, (flowNewsOf (Eng.run noneFollowed (Eng.init noneFollowed "1" "u" bothSkipped []) n) 0).map (·.1) = ["Completed", "Started"] ∧
      ∀ x ∈ taskNewsOf (Eng.run noneFollowed (Eng.init noneFollowed "1" "u" bothSkipped []) n) 0, x.2.1.id ≠ "C" :=
  ⟨by decide, 2, by decide, by decide⟩

/-! ### C57 -/

/-- C57, the task that started a subflow: if the subflow failed, the Failed event of the task carries the error of the
subflow (which was handed to the task, `C25_failed`).

Partial: only tasks that started a subflow. Failed events of other tasks and of flows carry no error
(`C57_negation_task`, `C57_negation_flow`). -/
theorem C57_subflow_host_partial {e e' : Eng} {i o : Nat} {t : TaskRef} {r : Eng.EvalOut} (hr : Reachable env e)
    (h : Evaluates env e i o t e' r) {ob : Obj} {td : TaskDef} (ho : e.obj? i o = some ob) (hw : ob.status = .waiting)
    (htd : e.taskDef? i t = some td) (hkind : td.kind = .basic) (hretry : td.retry = false) {uri : String}
    (hact : td.act = .subflow uri) {err : Err} (herr : ob.returnError = some err) :
    ∃ I : Inst, (e.step env).insts[i]? = some I ∧ .task o t .failed (some err) ∈ I.posted := by
  obtain ⟨h1, h2⟩ := (C25_resumed h ho hw htd hkind hretry hact).1 err herr
  subst h1
  obtain ⟨⟨name, hs⟩, _, _, _⟩ := Eng.evaluates_step h
  obtain ⟨ok, _, hrd⟩ := Eng.evaluates_good hr h
  obtain ⟨I', h3, h4⟩ := Eng.taskError_posted ok h2 hrd err
  have ht : ob.task = t := by have := h.task; rw [ho] at this; cases this; rfl
  rw [ht] at h3 h4
  rw [herr] at h4
  rw [hs]
  exact ⟨I', h3, h4⟩

-- non-trivial instance: the host A of the failing subflow of `failSub` is resumed
example : ∃ e', Evaluates failSub (failSubRun 2) 0 0 ⟨false, "A"⟩ e' (.err (.plain "boom")) := ⟨_, ⟨⟨⟨3, 0, 0⟩, rfl, rfl, rfl, rfl⟩, rfl⟩⟩
example : ((failSubRun 2).obj? 0 0).map (fun ob => (ob.status, ob.returnError)) = some (.waiting, some (.plain "boom")) := rfl

/-- C57 fails for flows, in general: unless an activity of the flow returned explicitly, the first Failed event of a flow
instance carries no error. -/
theorem C57_negation_flow {e : Eng} (hr : Reachable env e) {i : Nat} {I : Inst} (hI : e.insts[i]? = some I)
    (hf : I.force = false) {post pre : List (String × Option Err)} {err : Option Err}
    (hs : flowNewsOf e i = post ++ ("Failed", err) :: pre) (hfirst : ∀ x ∈ pre, x.1 ≠ "Failed") : err = none := by
  have hst : Eng.Stable (fun I => (I.status = .failed → ∃ x ∈ flowNews I.posted, x.1 = "Failed") ∧ (I.force = false →
      ((∀ x ∈ flowNews I.posted, x.1 ≠ "Failed") → I.returnError = none) ∧
      ∀ post pre err, flowNews I.posted = post ++ ("Failed", err) :: pre → (∀ x ∈ pre, x.1 ≠ "Failed") → err = none)) := by
    have fail : ∀ {I : Inst}, (I.force = false →
          ((∀ x ∈ flowNews I.posted, x.1 ≠ "Failed") → I.returnError = none) ∧
          ∀ post pre err, flowNews I.posted = post ++ ("Failed", err) :: pre → (∀ x ∈ pre, x.1 ≠ "Failed") → err = none) →
        ((I.setFlowStatus .failed).status = .failed → ∃ x ∈ flowNews (I.setFlowStatus .failed).posted, x.1 = "Failed") ∧
        ((I.setFlowStatus .failed).force = false →
          ((∀ x ∈ flowNews (I.setFlowStatus .failed).posted, x.1 ≠ "Failed") → (I.setFlowStatus .failed).returnError = none) ∧
          ∀ post pre err, flowNews (I.setFlowStatus .failed).posted = post ++ ("Failed", err) :: pre → (∀ x ∈ pre, x.1 ≠ "Failed") → err = none) := by
      intro I h2
      have hn : flowNews (I.setFlowStatus .failed).posted = ("Failed", I.returnError) :: flowNews I.posted := rfl
      refine ⟨fun _ => ⟨_, by rw [hn]; exact List.mem_cons_self, rfl⟩, fun hf => ⟨fun hall => ?_, ?_⟩⟩
      · exact absurd rfl (hall _ (by rw [hn]; exact List.mem_cons_self))
      · intro post pre err hsp hpre
        rw [hn] at hsp
        cases post with
        | nil =>
          cases hsp
          exact (h2 hf).1 hpre
        | cons y ys =>
          exact (h2 hf).2 ys pre err (List.cons.inj hsp).2 hpre
    constructor
    · rintro I I' hc ⟨h1, h2⟩
      rw [flowNews_calm hc.flows, hc.status, hc.force, hc.returnError]
      exact ⟨h1, h2⟩
    · rintro o I I' hc ⟨h1, h2⟩
      rw [hc.posted, hc.status]
      refine ⟨h1, fun hf => ?_⟩
      have hf0 : I.force = false := by
        cases h3 : I.force with
        | false => rfl
        | true => rw [hc.force h3] at hf; cases hf
      rw [hc.err hf]
      exact h2 hf0
    · intro d uri k h a
      refine ⟨fun hc => (nomatch hc), fun _ => ⟨fun _ => rfl, ?_⟩⟩
      intro post pre err hsp
      have hn : flowNews (Inst.setFlowStatus { defn := d, uri := uri, subflowId := k, host := h, attrs := a } .active).posted = [("Started", none)] := rfl
      rw [hn] at hsp
      cases post with
      | nil => simp at hsp
      | cons y ys => simp at hsp
    · rintro I ⟨_, h2⟩
      have hn : flowNews (I.setFlowStatus .completed).posted = ("Completed", none) :: flowNews I.posted := rfl
      refine ⟨fun hc => (nomatch hc), fun hf => ⟨fun hall => ?_, ?_⟩⟩
      · exact (h2 hf).1 fun x hx => hall x (by rw [hn]; exact List.mem_cons_of_mem _ hx)
      · intro post pre err hsp hpre
        rw [hn] at hsp
        cases post with
        | nil => simp at hsp
        | cons y ys =>
          exact (h2 hf).2 ys pre err (List.cons.inj hsp).2 hpre
    · rintro I ⟨_, h2⟩; exact fail h2
    · rintro I ⟨h1, h2⟩ _ _; exact ⟨h1, h2⟩
    · rintro I ⟨_, h2⟩ _ _; exact fail (I := { I with handling := true }) h2
    · rintro I err ⟨h1, h2⟩ hfa
      refine ⟨h1, fun hf => ⟨fun hall => ?_, (h2 hf).2⟩⟩
      obtain ⟨x, h3, h4⟩ := h1 hfa
      exact absurd h4 (hall x h3)
  unfold flowNewsOf at hs
  rw [hI] at hs
  exact ((hst.reachable hr i I hI).2 hf).2 post pre err hs hfirst

/-- A flow with the only task A. -/
def onlyA : Def := { name := "f", main := ⟨[tk "A"], []⟩ }
def boomEnv : Env := tableEnv (fun _ => { res := .err (.plain "boom") }) (fun _ => .ok true)

-- non-trivial instance: the flow fails with the error boom, its Failed event has no error
example : flowNewsOf (Eng.run boomEnv (Eng.init boomEnv "1" "u" onlyA []) 5) 0 = [("Failed", none), ("Started", none)] := rfl
example : ((Eng.run boomEnv (Eng.init boomEnv "1" "u" onlyA []) 5).insts[0]?).map (fun I => (I.force, I.returnError)) = some (false, some (.plain "boom")) := rfl

/-- C57, other events: only events with status Failed carry an error, which is the one stored for the flow or task. -/
theorem C57_only_failed (e : Eng) (i : Nat) (I : Inst) (ob : Obj) (md : ActMeta) :
    (∀ err, (e.flowEvent I).err = some err ↔ (e.flowEvent I).status = "Failed" ∧ I.returnError = some err) ∧
    ∀ err, (e.taskEvent i I ob md).err = some err ↔ (e.taskEvent i I ob md).status = "Failed" ∧ ob.returnError = some err := by
  constructor
  · intro err
    unfold Eng.flowEvent
    cases hs : I.status <;> simp [FlowStatus.eventName]
  · intro err
    unfold Eng.taskEvent
    cases hs : ob.status <;> simp [TaskStatus.eventName]

-- a flow that returned an error is Completed, and its event carries none
example : ((Eng.new "1" "u" { name := "f", main := ⟨[], []⟩ }).flowEvent
    { defn := { name := "f", main := ⟨[], []⟩ }, uri := "u", subflowId := 0, host := none, status := .completed
      returnError := some (.plain "no") }).err.isNone := rfl

/-- C57 fails for tasks: the Failed event of a task whose activity returned an error carries no error. -/
theorem C57_negation_task :
    ((Eng.run boomEnv (Eng.init boomEnv "1" "u" onlyA []) 5).insts[0]?).map (·.posted.filter (fun p => !p.isFlow)) =
      some [.task 0 ⟨false, "A"⟩ .failed none, .task 0 ⟨false, "A"⟩ .ready none, .task 0 ⟨false, "A"⟩ .entered none] := rfl

/-! ### C58 -/

theorem get?_filter {V : Type} (f : String → Bool) : ∀ (m : AMap String V) (k : String),
    AMap.get? (m.filter (fun p => f p.1)) k = if f k then AMap.get? m k else none
  | [], k => by simp [AMap.get?]
  | (a, v) :: m, k => by
    have ih := get?_filter f m k
    by_cases hf : f a = true
    · rw [List.filter_cons_of_pos (by simpa using hf)]
      simp only [AMap.get?]
      by_cases hak : a = k
      · subst hak; simp [hf]
      · simp [hak, ih]
    · rw [List.filter_cons_of_neg (by simpa using hf), ih]
      simp only [AMap.get?]
      by_cases hak : a = k
      · subst hak; simp [hf]
      · simp [hak]

theorem attrs_fix (I : Inst) : I.fixReturnData.attrs = I.attrs ∧ I.fixReturnData.status = I.status := by
  unfold Inst.fixReturnData
  split
  · exact ⟨rfl, rfl⟩
  · split <;> exact ⟨rfl, rfl⟩

/-- C58, Completed: every attribute of the flow instance is reported exactly once, as input or as output, with its value.

Partial: which of them are reported as output is not what the flow returns (`C58_negation_output`, `C58_negation_return`). -/
theorem C58_completed_reports_all_partial (e : Eng) (I : Inst) (hs : I.status = .completed) (k : String) (v : Val) :
    (e.flowEvent I).status = "Completed" ∧ (I.attrs.get? k = some v ↔
      ((e.flowEvent I).input.get? k = some v ∧ (e.flowEvent I).output.get? k = none) ∨
      ((e.flowEvent I).output.get? k = some v ∧ (e.flowEvent I).input.get? k = none)) := by
  obtain ⟨h1, h2⟩ := attrs_fix I
  have hin : (e.flowEvent I).input = I.attrs.filter (fun p => !isReturned I.fixReturnData.returnData p.1) := by
    unfold Eng.flowEvent Inst.reported
    simp [hs, h1]
  have hout : (e.flowEvent I).output = I.attrs.filter (fun p => isReturned I.fixReturnData.returnData p.1) := by
    unfold Eng.flowEvent Inst.reported
    simp [hs, h1, h2]
  refine ⟨by unfold Eng.flowEvent; simp [hs, FlowStatus.eventName], ?_⟩
  rw [hin, hout, get?_filter (fun k => !isReturned I.fixReturnData.returnData k), get?_filter (fun k => isReturned I.fixReturnData.returnData k)]
  cases isReturned I.fixReturnData.returnData k <;> simp

/-- C58, before the end: only Completed events report outputs, every reported value is that of an attribute, and an attribute
reported as output has a value in the return data of the flow. -/
theorem C58_outputs_only_completed_partial (e : Eng) (I : Inst) (k : String) (v : Val) :
    ((e.flowEvent I).output.get? k = some v → I.status = .completed ∧ I.attrs.get? k = some v ∧
      ∃ m w, I.fixReturnData.returnData = some m ∧ m.get? k = some w ∧ w ≠ .null) ∧
    ((e.flowEvent I).input.get? k = some v → I.attrs.get? k = some v) := by
  obtain ⟨h1, h2⟩ := attrs_fix I
  constructor
  · intro h
    by_cases hs : I.status = .completed
    · have hout : (e.flowEvent I).output = I.attrs.filter (fun p => isReturned I.fixReturnData.returnData p.1) := by
        unfold Eng.flowEvent Inst.reported
        simp [hs, h1, h2]
      rw [hout, get?_filter (fun k => isReturned I.fixReturnData.returnData k)] at h
      split at h
      · rename_i hr
        refine ⟨hs, h, ?_⟩
        unfold isReturned at hr
        split at hr
        · cases hr
        · rename_i m hm
          split at hr
          · cases hr
          · cases hr
          · rename_i w hw hne
            refine ⟨m, w, hm, hne, fun hc => ?_⟩
            subst hc
            exact hw rfl
      · cases h
    · exfalso
      have hout : (e.flowEvent I).output = [] := by
        unfold Eng.flowEvent Inst.reported
        by_cases hn : I.status = .notStarted <;> simp [hs, hn, h2]
      rw [hout] at h
      cases h
  · intro h
    by_cases hn : I.status = .notStarted
    · have hin : (e.flowEvent I).input = [] := by unfold Eng.flowEvent; simp [hn]
      rw [hin] at h
      cases h
    · have hin : (e.flowEvent I).input = I.attrs.filter (fun p => !isReturned I.fixReturnData.returnData p.1) := by
        unfold Eng.flowEvent Inst.reported
        simp [hn, h1]
      rw [hin, get?_filter (fun k => !isReturned I.fixReturnData.returnData k)] at h
      split at h
      · exact h
      · cases h

/-- C58, what the flow returns explicitly: an attribute for which a value is returned is reported as output of the Completed event.

Partial: it is reported with the value of the attribute, which need not be the returned one (`C58_negation_return`). -/
theorem C58_returned_partial (e : Eng) (I : Inst) (hs : I.status = .completed) {k : String} {v w : Val} {m : AMap String Val}
    (ha : I.attrs.get? k = some v) (hm : I.fixReturnData.returnData = some m) (hk : m.get? k = some w) (hw : w ≠ .null) :
    (e.flowEvent I).output.get? k = some v ∧ (e.flowEvent I).input.get? k = none := by
  have hr : isReturned I.fixReturnData.returnData k = true := by
    unfold isReturned
    rw [hm]; dsimp only; rw [hk]
    cases w <;> first | rfl | exact absurd rfl hw
  obtain ⟨h1, h2⟩ := attrs_fix I
  have hin : (e.flowEvent I).input = I.attrs.filter (fun p => !isReturned I.fixReturnData.returnData p.1) := by
    unfold Eng.flowEvent Inst.reported
    simp [hs, h1]
  have hout : (e.flowEvent I).output = I.attrs.filter (fun p => isReturned I.fixReturnData.returnData p.1) := by
    unfold Eng.flowEvent Inst.reported
    simp [hs, h1, h2]
  rw [hin, hout, get?_filter (fun k => !isReturned I.fixReturnData.returnData k), get?_filter (fun k => isReturned I.fixReturnData.returnData k)]
  simp [hr, ha]

/-- The values of attribute `k` that the event of the top-level flow reports as input and as output. -/
def reportedOf (e : Eng) (k : String) : Option (String × Option Int × Option Int) :=
  (e.insts[0]?).map (fun I => ((e.flowEvent I).status, ((e.flowEvent I).input.get? k).bind number?, ((e.flowEvent I).output.get? k).bind number?))

/-- C58 fails for computed outputs: the flow `setsX` declares the output x and computes x = 1, but its Completed event reports x
as an input and not as an output. -/
theorem C58_negation_output :
    reportedOf (Eng.run setsXEnv (Run.startEng setsXEnv { listener := true } "1" "u" setsX []) 10) "x" = some ("Completed", some 1, none) := by
  decide

/-- C58 fails for explicit returns: the flow returns x = 1, but its Completed event does not report x at all. -/
theorem C58_negation_return :
    reportedOf (Eng.run (returnEnv none (.ok true)) (Run.startEng (returnEnv none (.ok true)) { listener := true } "1" "u" (returning .dependency) []) 10) "x" =
      some ("Completed", none, none) ∧
    ((Eng.run (returnEnv none (.ok true)) (Run.startEng (returnEnv none (.ok true)) { listener := true } "1" "u" (returning .dependency) []) 10).insts[0]?).bind
      (fun I => I.returnData.bind (fun m => (m.get? "x").bind number?)) = some 1 := by
  decide

/-! ### C59 -/

/-- C59 for subflows started by the top-level flow, and for the top-level flow itself: the events of a flow name its identifier,
and as parent the flow that contains the task that started it.

Partial: for subflows started by subflows see `C59_negation`. -/
theorem C59_parent_partial {e : Eng} (hr : Reachable env e) {i : Nat} {I H : Inst} (hI : e.insts[i]? = some I) :
    (I.host = none → (e.flowEvent I).parentName = "" ∧ (e.flowEvent I).parentId = "" ∧ (e.flowEvent I).id = e.id) ∧
    (∀ ho, I.host = some (0, ho) → e.insts[0]? = some H → (e.flowEvent I).parentName = H.defn.name ∧
      (e.flowEvent I).parentId = (e.flowEvent H).id ∧ (e.flowEvent I).id = e.id ++ "-" ++ toString i) := by
  have ok := Eng.engOK_reachable hr
  have hsid := ok.sid i I hI
  constructor
  · intro hh
    have hi0 : i = 0 := by
      cases Nat.decEq i 0 with
      | isTrue h => exact h
      | isFalse h =>
        obtain ⟨a, b, h1, _⟩ := ok.hosts i I hI h
        rw [hh] at h1; cases h1
    subst hi0
    unfold Eng.flowEvent Eng.instID
    simp [hsid]
  · intro ho hh hH
    have hi0 : i ≠ 0 := by
      intro hc; subst hc
      rw [ok.host0 I hI] at hh; cases hh
    have hHs := ok.sid 0 H hH
    unfold Eng.flowEvent Eng.instID Eng.topName
    simp [hsid, hHs, hH, Nat.pos_of_ne_zero hi0]

/-- Flow f starts subflow g, which starts subflow h. -/
def nestedSubs : Env :=
  { tableEnv (fun _ => {}) (fun _ => .ok true) with
    defs := fun u =>
      if u = "g" then .ok (some { name := "g", main := ⟨[{ tk "B" with act := .subflow "h" }], []⟩ })
      else if u = "h" then .ok (some { name := "h", main := ⟨[tk "C"], []⟩ }) else .ok none }
def nestedFlow : Def := { name := "f", main := ⟨[{ tk "A" with act := .subflow "g" }], []⟩ }
def nestedRun : Eng := Eng.run nestedSubs (Eng.init nestedSubs "1" "u" nestedFlow []) 2

-- non-trivial instance: g is started by the top-level flow
example : ((nestedRun.insts[1]?).map (fun I => (I.host, (nestedRun.flowEvent I).parentName))) = some (some (0, 0), "f") := by decide

/-- The text in a value. -/
def text? : Val → Option String
  | .str s => some s
  | _ => none

/-- C59 fails for nested subflows: the events of h name the top-level flow f as its parent, although h was started by task B of
the subflow g; its flow context names g. -/
theorem C59_negation : ((nestedRun.insts[2]?).map (fun I => ((nestedRun.flowEvent I).name, (nestedRun.flowEvent I).parentName,
      (nestedRun.flowEvent I).hostTask))) = some ("h", "f", some ("B", 0)) ∧
    ((nestedRun.insts[2]?).bind (fun I => (I.attrs.get? "_fctx.ParentFlowName").bind text?)) = some "g" := by decide

/-! ### C60 -/

theorem get?_reported (vals : AMap String Val) : ∀ (l : List (String × Val)) (k : String),
    AMap.get? (reportedValues l vals) k = (AMap.get? l k).map (fun d => (vals.get? k).getD d)
  | [], _ => rfl
  | (a, d) :: l, k => by
    have ih := get?_reported vals l k
    unfold reportedValues at ih ⊢
    simp only [List.map_cons, AMap.get?]
    by_cases hak : a = k
    · subst hak; simp
    · simp [hak, ih]

/-- C60: a task event reports every declared input with the value it has in the task, or else its default, and nothing else;
a Completed event does the same for the outputs, and no other event reports outputs.

Partial: the event says what the task holds at the time of the event; for Started events these are not yet the inputs of
the activity (`C60_negation_started`). -/
theorem C60_declared_values_partial (e : Eng) (i : Nat) (I : Inst) (ob : Obj) (md : ActMeta) (k : String) :
    (∀ d, AMap.get? md.inputs k = some d → (e.taskEvent i I ob md).input.get? k = some ((ob.inputs.get? k).getD d)) ∧
    (AMap.get? md.inputs k = none → (e.taskEvent i I ob md).input.get? k = none) ∧
    (∀ d m, ob.status = .done → ob.outputs = some m → AMap.get? md.outputs k = some d → (e.taskEvent i I ob md).output.get? k = some ((m.get? k).getD d)) ∧
    (AMap.get? md.outputs k = none ∨ ob.status ≠ .done → (e.taskEvent i I ob md).output.get? k = none) := by
  unfold Eng.taskEvent
  refine ⟨?_, ?_, ?_, ?_⟩
  · intro d hd; simp [get?_reported, hd]
  · intro hd; simp [get?_reported, hd]
  · intro d m hs ho hd; simp [get?_reported, hd, hs, ho]
  · intro h
    by_cases hs : ob.status = .done
    · have hd := h.resolve_right (fun hc => hc hs)
      simp [get?_reported, hd, hs]
    · simp [hs]

/-- An activity with input x, to which the mapper gives the value 7. -/
def mapsX : Env := { tableEnv (fun _ => {}) (fun _ => .ok true) with inMap := fun _ _ _ => some (.ok [("x", .int 7)]) }
def mdX : ActMeta := ⟨[("x", .null)], []⟩
/-- Status and input x in the event of task object 0. -/
def eventX (e : Eng) : Option (String × Option Int) :=
  (e.insts[0]?).bind (fun I => (I.objs[0]?).map (fun ob => ((e.taskEvent 0 I ob mdX).status, ((e.taskEvent 0 I ob mdX).input.get? "x").bind number?)))

/-- C60 fails for Started events: the activity is evaluated with x = 7, as the Completed event says, but the Started event reports
no value for x. -/
theorem C60_negation_started :
    eventX (Eng.init mapsX "1" "u" onlyA []) = some ("Started", none) ∧
    eventX (Eng.run mapsX (Eng.init mapsX "1" "u" onlyA []) 1) = some ("Completed", some 7) := by decide

/-! ### C91 -/

/-- C91: the event of a task names the task as the definition does, and the flow instance by the name of its definition and by an
identifier that no other flow instance of the run has; the events of the flow instance itself use the same name and identifier. -/
theorem C91_identified {e : Eng} (hr : Reachable env e) {i : Nat} {I : Inst} (hI : e.insts[i]? = some I) {ob : Obj} (md : ActMeta)
    {td : TaskDef} (htd : td ∈ (I.defn.graph ob.task.eh).tasks) (hid : td.id = ob.task.id)
    (hn : ((I.defn.graph ob.task.eh).tasks.map (·.id)).Nodup) :
    (e.taskEvent i I ob md).name = td.name ∧ (e.taskEvent i I ob md).flowName = I.defn.name ∧
      (e.flowEvent I).name = I.defn.name ∧ (e.taskEvent i I ob md).flowId = (e.flowEvent I).id ∧
      ∀ (j : Nat) (J : Inst) (ob' : Obj) (md' : ActMeta), e.insts[j]? = some J →
        (e.taskEvent j J ob' md').flowId = (e.taskEvent i I ob md).flowId → j = i := by
  refine ⟨?_, rfl, rfl, rfl, fun j J ob' md' hJ he => C26_unique_ids hr hJ hI he⟩
  have hfind : ∀ (ts : List TaskDef), td ∈ ts → (ts.map (·.id)).Nodup → ts.find? (fun x => x.id = ob.task.id) = some td := by
    intro ts
    induction ts with
    | nil => exact fun h => nomatch h
    | cons x xs ih =>
      intro hm hn
      rw [List.map_cons, List.nodup_cons] at hn
      rcases List.mem_cons.1 hm with hx | hm'
      · subst hx; simp [hid]
      · have hne : ¬ x.id = ob.task.id := by
          intro hc
          exact hn.1 (hc ▸ hid ▸ List.mem_map_of_mem hm')
        rw [List.find?_cons]
        simp [hne, ih hm' hn.2]
  unfold Eng.taskEvent Eng.taskName Eng.taskDef? Def.task?
  dsimp only
  rw [hI]
  dsimp only
  rw [hfind _ htd hn]

-- non-trivial instance: a flow started by a flow started by a flow; its task C is named "C" of flow "h" with identifier "1-2"
example : Reachable nestedSubs nestedRun := ⟨"1", "u", nestedFlow, [], 2, rfl⟩
example : ((nestedRun.insts[2]?).bind fun I => (I.objs[0]?).map fun ob => ((nestedRun.taskEvent 2 I ob ⟨[], []⟩).name,
    (nestedRun.taskEvent 2 I ob ⟨[], []⟩).flowName, (nestedRun.taskEvent 2 I ob ⟨[], []⟩).flowId)) = some ("C", "h", "1-2") := by decide

end Flow
