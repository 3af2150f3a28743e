import Verif.Model.Tracker

/-
Snapshots: `Snapshot` of an instance (`instance/ind_instance.go`), the reconstruction of a snapshot from recorded steps
(`state/util.go`), and the recording modes (`state/status.go`, `instance/recorder.go`, `action.go`).

A Go map is an association list; the order of the list is the order in which the map is traversed, so that a statement
about all lists covers all orders.
-/

namespace Flow

/-- `state.SnapshotBase`, state/snapshot.go; `attrs = none` is the nil map. -/
structure SnapBase where
  uri : String := ""
  status : FlowStatus := .notStarted
  attrs : Option (AMap String Val) := none
  tasks : AMap TaskId TaskStatus := []
  links : AMap LinkId LinkStatus := []

/-- `state.WorkItem`. -/
structure SnapItem where
  id : Nat
  subflowId : Nat
  taskId : TaskId
  deriving DecidableEq, Repr

/-- `state.Snapshot`; a subflow is given with its identifier and the task that started it. -/
structure Snap where
  id : String
  base : SnapBase := {}
  queue : List SnapItem := []
  subflows : List (Nat × TaskId × SnapBase) := []

/-! ### `Snapshot`, ind_instance.go lines 969-1016 -/

/-- `populateBaseSnapshot`, lines 991-1016. -/
def Inst.snapBase (I : Inst) : SnapBase :=
  { uri := I.uri
    status := I.status
    attrs := if I.attrs = [] then none else some I.attrs
    tasks := I.tasks.map (fun p => (p.1, ((I.objs[p.2]?).map (·.status)).getD .notStarted))
    links := I.links }

/-- `IndependentInstance.Snapshot`, lines 969-989. The snapshots of the subflows are built (lines 980-986) but never
appended to the result, and the work queue is not read; so both stay empty. -/
def Eng.snapshot (e : Eng) : Snap :=
  match e.insts[0]? with
  | none => { id := e.id }
  | some I => { id := e.id, base := I.snapBase }

/-! ### `StepsToSnapshot`, state/util.go -/

/-- `UpdateTasks` and `UpdateLinks`: a missing entry is appended, the status of an existing one is only set if it is zero.
Simplification: the Go loop takes the last entry with the key; entries are only appended for missing keys, so there is at
most one. -/
def putStatus {K S : Type} [DecidableEq K] [DecidableEq S] (zero : S) (l : AMap K S) (k : K) (s : S) : AMap K S :=
  match l.get? k with
  | none => l ++ [(k, s)]
  | some s0 => if s0 = zero then l.set k s else l

/-- `UpdateFlow`. -/
def SnapBase.updateFlow (b : SnapBase) (c : FlowChg) : SnapBase :=
  { uri := if c.newFlow then c.uri else b.uri
    status := if b.status = .notStarted then c.status else b.status
    attrs :=
      if c.attrs = [] then b.attrs
      else match b.attrs with
        | none => some c.attrs
        | some m => some (m.update c.attrs)
    tasks := c.tasks.foldl (fun l p => putStatus .notStarted l p.1 p.2.status) b.tasks
    links := c.links.foldl (fun l p => putStatus .unset l p.1 p.2.status) b.links }

/-- The local variables of `StepsToSnapshot`: the base of the main flow, the work queue, `first` (`none` for -1),
`queueDone`, and the place (step and key of the flow change) of the attribute map that `base.attrs` shares, because
`UpdateFlow` stores the map of the first change itself. The map `subflows` is never filled, hence every subflow change
updates a new base that is dropped. -/
structure Rebuild where
  base : SnapBase := {}
  shared : Option (Nat × Nat) := none
  queue : List SnapItem := []
  first : Option Nat := none
  queueDone : Bool := false

/-- One flow change of step number `i`. -/
def Rebuild.flow (i : Nat) (r : Rebuild) (p : Nat × FlowChg) : Rebuild :=
  if 0 < p.2.subflowId then r
  else { r with base := r.base.updateFlow p.2
                shared := if p.2.attrs ≠ [] ∧ r.base.attrs = none then some (i, p.1) else r.shared }

/-- `UpdateQueue` for one entry, with the assignment of `queueDone` and the `break`. -/
def Rebuild.item (r : Rebuild) (p : Nat × QueueChg) : Rebuild :=
  if r.queueDone then r
  else if r.first = none ∧ p.2.chg = .delete then { r with first := some p.1 }
  else if r.first = some p.1 then { r with queueDone := true }
  else if p.2.chg = .add then { r with queue := r.queue ++ [⟨p.1, p.2.subflowId, p.2.taskId⟩] }
  else r

/-- One step. -/
def Rebuild.step (r : Rebuild) (p : Nat × StepRec) : Rebuild :=
  p.2.queue.foldl Rebuild.item (p.2.flows.foldl (Rebuild.flow p.1) r)

/-- The steps with their positions. -/
def numbered (steps : List StepRec) : List (Nat × StepRec) := (List.range steps.length).zip steps

/-- The loop of `StepsToSnapshot`, from the last step to the first. -/
def rebuild (steps : List StepRec) : Rebuild := (numbered steps).reverse.foldl Rebuild.step {}

/-- `StepsToSnapshot`. -/
def stepsToSnapshot (id : String) (steps : List StepRec) : Snap :=
  { id := id, base := (rebuild steps).base, queue := (rebuild steps).queue }

/-- The input steps after the call: the shared map has become the attribute map of the snapshot. -/
def stepsAfter (steps : List StepRec) : List StepRec :=
  match (rebuild steps).shared with
  | none => steps
  | some (i, k) => steps.modify i (fun s => s.modFlow k (fun c => { c with attrs := (rebuild steps).base.attrs.getD [] }))

/-! ### Recording modes -/

/-- `state.RecordingMode`, state/status.go. -/
inductive Mode
  | off | debugger | step | full | snapshot
  deriving DecidableEq, Repr

/-- The constant for a name. -/
def Mode.ofName : String → Option Mode
  | "off" => some .off
  | "debugger" => some .debugger
  | "step" => some .step
  | "full" => some .full
  | "snapshot" => some .snapshot
  | _ => none

/-- `ToRecordingMode`: `lower` is `strings.ToLower`, `m` the setting as a string (empty if the coercion fails). -/
def toRecordingMode (lower : String → String) (m : String) : Mode × Option Err :=
  match Mode.ofName (lower m) with
  | some k => (k, none)
  | none => (.off, some (.plain ("unsupport state recording mode [" ++ m ++ "]")))

/-- `RecordSteps`. -/
def Mode.recordSteps : Mode → Bool
  | .off | .snapshot => false
  | _ => true

/-- `RecordSnapshot`. -/
def Mode.recordSnapshot : Mode → Bool
  | .snapshot | .full => true
  | _ => false

/-- What a recorder receives. -/
inductive Rec
  | snapshot (s : Snap)
  | step (s : StepRec)

/-- `IndependentInstance.RecordState`, instance/recorder.go lines 22-41. Errors of the recorder are logged only. -/
def recordState (m : Mode) (e : Eng) (t : Tracker) : List Rec × Tracker :=
  let snaps := if m.recordSnapshot then [Rec.snapshot e.snapshot] else []
  if m.recordSteps then (snaps ++ [Rec.step t.extract.1], t.extract.2) else (snaps, t)

/-- Runtime settings read by `Initialize`: the recording mode if it is set, and the two older settings. -/
structure RtSettings where
  mode : Option String := none
  stepMode : String := ""
  snapshotMode : String := ""

/-- Result of `ActionFactory.Initialize`: the recording mode, the returned error and whether the function reached its end,
where the flow manager is installed (action.go lines 104-125). -/
structure Init where
  mode : Mode
  err : Option Err := none
  finished : Bool

/-- `ActionFactory.Initialize`, action.go lines 56-126, first call; `fold` is `strings.EqualFold("full", ·)`. A map of runtime
settings without any of the three entries behaves like an empty one. -/
def initAction (lower : String → String) (fold : String → Bool) (s : RtSettings) : Init :=
  match s.mode with
  | some m =>
    match toRecordingMode lower m with
    | (k, none) => { mode := k, finished := true }
    | (k, some _) => { mode := k, finished := false }
  | none =>
    { mode :=
        if fold s.stepMode && fold s.snapshotMode then .full
        else if fold s.stepMode then .step
        else if fold s.snapshotMode then .snapshot
        else .off
      finished := true }

end Flow
