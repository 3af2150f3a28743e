import Verif.Proofs.Data
import Verif.Spec.Plain

/-!
C61: tasks whose inputs or outputs are not acceptable.
-/

namespace Flow
open Spec

variable {env : Env} {i o : Nat}

/-- **C61** In every state of every execution: the activity of a task instance whose inputs cannot be mapped or violate the
schema has not been called, in no attempt, loop round or error handler. -/
theorem C61_never_called (hb : RejectsInput env i o) {e : Eng} (hr : Reachable env e) {I : Inst} (hI : e.insts[i]? = some I)
    (t : TaskRef) : .evalAct o t ∉ I.trace := by
  have h := Eng.NoCall.reachable (o := o) (t := t) hr I hI (Or.inr hb)
  exact List.count_eq_zero.1 h

/-- **C61** Whenever such a task is evaluated, it fails (an iterator may be done instead if nothing is left to iterate over,
but never goes on with another round), and its failure is reported. -/
theorem C61_bad_inputs (hb : RejectsInput env i o) {e e' : Eng} {t : TaskRef} {r : Eng.EvalOut} (hr : Reachable env e)
    (h : Evaluates env e i o t e' r) {td : TaskDef} (htd : e.taskDef? i t = some td)
    (hnew : ∀ ob, e.obj? i o = some ob → ob.status ≠ .waiting) (hs : NotSkipped env t.id) :
    r ≠ .res .again ∧
    (td.kind ≠ .iterator → IsErr r ∧
      ∃ (I : Inst) (x : Option Err), (e.step env).insts[i]? = some I ∧ .task o t .failed x ∈ I.posted) := by
  obtain ⟨I, hI⟩ : ∃ I, e.insts[i]? = some I := by
    have := h.task
    cases h1 : e.obj? i o with
    | none => rw [h1] at this; cases this
    | some ob => obtain ⟨I, hI, _⟩ := Eng.obj?_some h1; exact ⟨I, hI⟩
  obtain ⟨f, hf, hev⟩ := Eng.evaluates_stands h hI htd hnew
  have hin := Eng.attempts_input (d := I.defn) hb hs
  have hr2 : r = (Eng.evalKind env f i o td).2 := congrArg (·.2) hev
  constructor
  · rw [hr2]
    refine (Eng.evalKind_noSuccess ⟨fun e => (nomatch ·), fun g hg => ?_⟩ hf td).1
    obtain ⟨err, he⟩ := hin.once g hg
    rw [he]; exact (nomatch ·)
  · intro hk
    obtain ⟨err, he⟩ := Eng.evalKind_fails hin hf td hk
    rw [he] at hr2
    subst hr2
    exact ⟨trivial, Eng.evaluates_reported hr h⟩

/-- **C61** If the mapping of the inputs of a task (other than an iterator) fails, then the task fails with the error that
names the task and the message of the mapper, without a retry, and nothing but the status of the task is changed before. -/
theorem C61_mapping_error {e e' : Eng} {t : TaskRef} {r : Eng.EvalOut} (h : Evaluates env e i o t e' r) {td : TaskDef}
    (htd : e.taskDef? i t = some td) (hkind : td.kind = .basic) {ob : Obj} (ho : e.obj? i o = some ob)
    (hnew : ob.status ≠ .waiting) {m : String} (hm : ∀ w, env.inMap (afterPop env e w) i o = some (.error m)) :
    r = .err (.eval td.name "mapper" m) ∧ e'.insts = e.insts := by
  have ht : ob.task = t := by have := h.task; rw [ho] at this; cases this; rfl
  subst ht
  obtain ⟨w, _, _, _, _, h5⟩ := Eng.evaluates_eval h ho htd
  have h6 := h5 hnew
  have ho' : (afterPop env e w).obj? i o = some ob := ho
  have htd' : (afterPop env e w).taskDef? i ob.task = some td := htd
  unfold Eng.evalKind at h6
  rw [hkind] at h6
  dsimp only at h6
  unfold Eng.evalBasic Eng.evalActivity Eng.evalOnce at h6
  rw [ho'] at h6; dsimp only at h6
  rw [htd'] at h6; dsimp only at h6
  unfold Eng.applyInputMapper at h6
  rw [hm w] at h6
  cases h6
  exact ⟨rfl, rfl⟩

/-- C61, outputs: when a task is evaluated whose outputs violate the schema, or whose output mapping fails (and it does not
accumulate), it is not done and its loop does not go on: it fails or waits (an iterator may be done if nothing is left).

Partial: only as long as the activity does not make the task wait; the outputs of a waiting task are not validated when it is
resumed (`C61_negation`). -/
theorem C61_bad_outputs_partial {e e' : Eng} {t : TaskRef} {r : Eng.EvalOut} (h : Evaluates env e i o t e' r) {td : TaskDef}
    (htd : e.taskDef? i t = some td) (hnew : ∀ ob, e.obj? i o = some ob → ob.status ≠ .waiting)
    (hb : RejectsOutput env i o ∨ (FailsOutputMap env i o ∧ td.accumulates = false)) :
    r ≠ .res .again ∧ (td.kind ≠ .iterator → ¬ Succeeds r) := by
  obtain ⟨I, hI⟩ : ∃ I, e.insts[i]? = some I := by
    have := h.task
    cases h1 : e.obj? i o with
    | none => rw [h1] at this; cases this
    | some ob => obtain ⟨I, hI, _⟩ := Eng.obj?_some h1; exact ⟨I, hI⟩
  obtain ⟨f, hf, hev⟩ := Eng.evaluates_stands h hI htd hnew
  have htd' : I.defn.task? t = some td := by
    unfold Eng.taskDef? at htd; rw [hI] at htd; exact htd
  have ha : Eng.Attempts env i o t I.defn (fun x => x ≠ .ok true) := by
    rcases hb with hb | ⟨hb, hacc⟩
    · exact Eng.attempts_output hb
    · exact Eng.attempts_outMap hb (fun td' h' => by rw [htd'] at h'; cases h'; exact hacc)
  obtain ⟨h1, h2⟩ := Eng.evalKind_noSuccess ha hf td
  have hr2 : r = (Eng.evalKind env f i o td).2 := congrArg (·.2) hev
  rw [← hr2] at h1 h2
  refine ⟨h1, fun hk hs => ?_⟩
  cases r with
  | res x =>
    cases x with
    | done => exact h2 hk rfl
    | again => exact h1 rfl
    | _ => exact hs
  | err _ => exact hs
  | panic _ => exact hs

/-! ### Concrete cases -/

/-- One task. -/
def single (a : ActKind) : Def := { name := "F", main := { tasks := [{ tk "A" with act := a }], links := [] } }

/-- The inputs violate the schema; the activity would succeed. -/
def badIn : Env := { plainEnv with inSchema := fun _ _ _ => some (.plain "input") }

/-- The input mapping fails. -/
def badMap : Env := { plainEnv with inMap := fun _ _ _ => some (.error "map") }

/-- The outputs violate the schema; asynchronous activities wait and are then done. -/
def badOut (r : ActRes) : Env := { plainEnv with outSchema := fun _ _ _ => some (.plain "output"), act := fun _ _ _ => { res := r } }

/-- The output mapping fails. -/
def badOutMap : Env := { plainEnv with outMap := fun _ _ _ => some ([], some "map") }

-- the hypotheses hold, the task is evaluated and fails
example : RejectsInput badIn 0 0 ∧ RejectsInput badMap 0 0 ∧ NotSkipped badIn "A" :=
  ⟨Or.inr fun _ => ⟨_, rfl⟩, Or.inl fun _ => ⟨_, rfl⟩, (fun _ h => nomatch h)⟩
example : ∃ e', Evaluates badIn (Eng.run badIn (Eng.init badIn "1" "f" (single .user) []) 0) 0 0 ⟨false, "A"⟩ e' (.err (.plain "input")) :=
  ⟨_, ⟨⟨⟨1, 0, 0⟩, rfl, rfl, rfl, rfl⟩, rfl⟩⟩
example : ∃ e', Evaluates badMap (Eng.run badMap (Eng.init badMap "1" "f" (single .user) []) 0) 0 0 ⟨false, "A"⟩ e' (.err (.eval "A" "mapper" "map")) :=
  ⟨_, ⟨⟨⟨1, 0, 0⟩, rfl, rfl, rfl, rfl⟩, rfl⟩⟩
example : flowStatus (Eng.run badIn (Eng.init badIn "1" "f" (single .user) []) 20) 0 = some .failed := by decide
example : RejectsOutput (badOut .done) 0 0 ∧ FailsOutputMap badOutMap 0 0 := ⟨fun _ => ⟨_, rfl⟩, fun _ => ⟨_, _, rfl⟩⟩
example : ∃ e', Evaluates (badOut .done) (Eng.run (badOut .done) (Eng.init (badOut .done) "1" "f" (single .user) []) 0) 0 0 ⟨false, "A"⟩ e'
    (.err (.plain "output")) := ⟨_, ⟨⟨⟨1, 0, 0⟩, rfl, rfl, rfl, rfl⟩, rfl⟩⟩
example : ∃ e', Evaluates badOutMap (Eng.run badOutMap (Eng.init badOutMap "1" "f" (single .user) []) 0) 0 0 ⟨false, "A"⟩ e'
    (.err (.eval "A" "mapper" "map")) := ⟨_, ⟨⟨⟨1, 0, 0⟩, rfl, rfl, rfl, rfl⟩, rfl⟩⟩

/-- The outputs of the tasks of the main flow violate the schema; `v` is a flow with one task. -/
def badSubOut : Env :=
  { plainEnv with
    outSchema := fun _ i _ => if i = 0 then some (.plain "output") else none
    defs := fun u => if u = "v" then .ok (some { name := "G", main := { tasks := [tk "B"], links := [] } }) else .ok none }

def badSubRun (n : Nat) : Eng := Eng.run badSubOut (Eng.init badSubOut "1" "f" (single (.subflow "v")) []) n

/-- The full claim for outputs is false: the outputs of a task that waited are not validated when it is resumed. The task that
calls a subflow succeeds although its outputs violate the schema in every state, and the flow completes. -/
theorem C61_negation :
    (¬ ∀ (env : Env) (e e' : Eng) (i o : Nat) (t : TaskRef) (r : Eng.EvalOut) (td : TaskDef), Reachable env e →
      Evaluates env e i o t e' r → e.taskDef? i t = some td → td.kind ≠ .iterator → RejectsOutput env i o → ¬ Succeeds r) ∧
    flowStatus (badSubRun 40) 0 = some .completed := by
  refine ⟨fun hall => ?_, by decide⟩
  exact hall badSubOut (badSubRun 3) _ 0 0 ⟨false, "A"⟩ (.res .done) _ ⟨_, _, _, _, _, rfl⟩
    ⟨⟨⟨3, 0, 0⟩, rfl, rfl, rfl, rfl⟩, rfl⟩ rfl (fun h => nomatch h) (fun _ => ⟨_, rfl⟩) trivial

end Flow
