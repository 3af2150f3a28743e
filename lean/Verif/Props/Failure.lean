import Verif.Proofs.Failure
import Verif.Props.Data

/-
C66, C67: activities that fail and activities that are not finished.
-/

namespace Flow

open Spec

variable {env : Env} {i o : Nat}

/-- **C66** A task whose activity fails at every call, or is to start a subflow that does not exist, fails when it is evaluated,
however often it is retried, and its failure is reported. An iterator may be done instead if nothing is left to iterate over;
it neither goes on nor waits. -/
theorem C66_called {e e' : Eng} {t : TaskRef} {r : Eng.EvalOut} (hr : Reachable env e) (h : Evaluates env e i o t e' r) {td : TaskDef}
    (htd : e.taskDef? i t = some td) (hnew : ∀ ob, e.obj? i o = some ob → ob.status ≠ .waiting) (hi : NoInterceptors env)
    (hu : Unable env i o td) :
    r ≠ .res .again ∧ r ≠ .res .wait ∧
    (td.kind ≠ .iterator → IsErr r ∧
      ∃ (I : Inst) (x : Option Err), (e.step env).insts[i]? = some I ∧ .task o t .failed x ∈ I.posted) := by
  obtain ⟨I, hI⟩ : ∃ I, e.insts[i]? = some I := by
    have := h.task
    cases h1 : e.obj? i o with
    | none => rw [h1] at this; cases this
    | some ob => obtain ⟨I, hI, _⟩ := Eng.obj?_some h1; exact ⟨I, hI⟩
  obtain ⟨f, hf, hev⟩ := Eng.evaluates_stands h hI htd hnew
  have htd' : I.defn.task? t = some td := by
    unfold Eng.taskDef? at htd; rw [hI] at htd; exact htd
  have ha := Eng.attempts_unable hi htd' hu
  have hr2 : r = (Eng.evalKind env f i o td).2 := congrArg (·.2) hev
  refine ⟨?_, ?_, fun hk => ?_⟩
  · rw [hr2]
    exact (Eng.evalKind_noSuccess ⟨fun e => (nomatch ·), fun f hf h1 => by obtain ⟨err, h2⟩ := ha.once f hf; rw [h1] at h2; cases h2⟩ hf td).1
  · rw [hr2]
    exact Eng.evalKind_noWait ha hf td
  · obtain ⟨err, he⟩ := Eng.evalKind_fails ha hf td hk
    rw [he] at hr2
    subst hr2
    exact ⟨trivial, Eng.evaluates_reported hr h⟩

/-- **C66** A waiting task of any kind whose asynchronous activity fails when it is resumed fails, and its failure is reported.
If retries are configured, the activity must also fail at every further call. -/
theorem C66_resumed {e e' : Eng} {t : TaskRef} {r : Eng.EvalOut} (hr : Reachable env e) (h : Evaluates env e i o t e' r) {td : TaskDef}
    (htd : e.taskDef? i t = some td) {ob : Obj} (ho : e.obj? i o = some ob) (hw : ob.status = .waiting) (hact : td.act = .async)
    (hf : ∀ e, Failure (env.post e i o).res) (hret : td.retry = false ∨ NoInterceptors env ∧ Unable env i o td) :
    IsErr r ∧ ∃ (I : Inst) (x : Option Err), (e.step env).insts[i]? = some I ∧ .task o t .failed x ∈ I.posted := by
  have ht : ob.task = t := by have := h.task; rw [ho] at this; cases this; rfl
  subst ht
  obtain ⟨I, hI, hob⟩ := Eng.obj?_some ho
  obtain ⟨w, _, _, _, h5, _⟩ := Eng.evaluates_eval h ho htd
  have htd' : I.defn.task? ob.task = some td := by
    unfold Eng.taskDef? at htd; rw [hI] at htd; exact htd
  obtain ⟨err, he⟩ := Eng.postKind_fails (env := env) (e := afterPop env e w) ⟨I, ob, hI, hob, rfl, rfl⟩ htd' hact hf hret
  rw [← h5 hw] at he
  dsimp only at he
  subst he
  exact ⟨trivial, Eng.evaluates_reported hr h⟩

/-- What holds of C67: as long as the activity reports at every call that it is not finished, the evaluation of its task does
not end the task or a round of its loop.

Missing: resuming the task, see `C67_negation`. -/
theorem C67_waits_partial {e e' : Eng} {t : TaskRef} {r : Eng.EvalOut} (h : Evaluates env e i o t e' r) {td : TaskDef}
    (htd : e.taskDef? i t = some td) (hnew : ∀ ob, e.obj? i o = some ob → ob.status ≠ .waiting) (hi : NoInterceptors env)
    (hact : td.act.sub? = none) (hw : ∀ e, (env.act e i o).res = .wait) : r ≠ .res .again ∧ (td.kind ≠ .iterator → r ≠ .res .done) := by
  obtain ⟨I, hI⟩ : ∃ I, e.insts[i]? = some I := by
    have := h.task
    cases h1 : e.obj? i o with
    | none => rw [h1] at this; cases this
    | some ob => obtain ⟨I, hI, _⟩ := Eng.obj?_some h1; exact ⟨I, hI⟩
  obtain ⟨f, hf, hev⟩ := Eng.evaluates_stands h hI htd hnew
  have htd' : I.defn.task? t = some td := by
    unfold Eng.taskDef? at htd; rw [hI] at htd; exact htd
  have hr2 : r = (Eng.evalKind env f i o td).2 := congrArg (·.2) hev
  rw [hr2]
  exact Eng.evalKind_noSuccess (Eng.attempts_waiting hi (fun td' h' => by rw [htd'] at h'; cases h'; exact hact) hw) hf td

/-! ### Concrete cases -/

/-- Every activity panics. -/
def panicEnv : Env := { plainEnv with act := fun _ _ _ => { res := .panic "boom" } }

-- the hypotheses hold, the task is evaluated and fails
example : NoInterceptors panicEnv ∧ Unable panicEnv 0 0 { tk "A" with act := .user } ∧ Unable plainEnv 0 0 { tk "A" with act := .subflow "x" } :=
  ⟨fun _ => rfl, fun _ => trivial, (fun _ h => nomatch h)⟩
example : ∃ e', Evaluates panicEnv (Eng.init panicEnv "1" "f" (single .user) []) 0 0 ⟨false, "A"⟩ e' (.err (.eval "A" "unhandled" "boom")) :=
  ⟨_, ⟨⟨⟨1, 0, 0⟩, rfl, rfl, rfl, rfl⟩, rfl⟩⟩
example : ∃ e', Evaluates plainEnv (Eng.init plainEnv "1" "f" (single (.subflow "x")) []) 0 0 ⟨false, "A"⟩ e'
    (.err (.plain "unable to resolve subflow: x")) := ⟨_, ⟨⟨⟨1, 0, 0⟩, rfl, rfl, rfl, rfl⟩, rfl⟩⟩

/-- Two links from A to B, whose activity is asynchronous: B is scheduled twice. -/
def doubled : Def :=
  { name := "F", main := ⟨[tk "A", { tk "B" with act := .async }], [⟨1, "A", "B", .dependency, ""⟩, ⟨2, "A", "B", .dependency, ""⟩]⟩ }

/-- The activity of B waits when it is called; `r` is what it reports when it is resumed. -/
def againEnv (r : ActRes) : Env :=
  { plainEnv with act := fun _ _ o => if o = 1 then { res := .wait } else {}, post := fun _ _ _ => { res := r } }

def resuming (r : ActRes) (n : Nat) : Eng := Eng.run (againEnv r) (Eng.init (againEnv r) "1" "f" doubled []) n

-- B waits, is resumed and fails
example : ((resuming .wait 6).obj? 0 1).map (·.status) = some .waiting := by decide
example : ∃ e', Evaluates (againEnv (.err (.plain "boom"))) (resuming (.err (.plain "boom")) 6) 0 1 ⟨false, "B"⟩ e' (.err (.plain "boom")) :=
  ⟨_, ⟨⟨⟨3, 0, 1⟩, rfl, rfl, rfl, rfl⟩, rfl⟩⟩
example : ∀ e, Failure ((againEnv (.err (.plain "boom"))).post e 0 1).res := fun _ => trivial

/-- C67 is false when the task is resumed: the activity reports again that it is not finished, but its task is done and the
flow is completed. -/
theorem C67_negation : ∃ (env : Env) (e : Eng) (ob : Obj) (e' : Eng), Reachable env e ∧
    (∀ f, (env.act f 0 1).res = .wait ∧ (env.post f 0 1).res = .wait) ∧
    e.obj? 0 1 = some ob ∧ ob.status = .waiting ∧ Evaluates env e 0 1 ⟨false, "B"⟩ e' (.res .done) ∧
    flowStatus (e.step env) 0 = some .completed :=
  ⟨againEnv .wait, resuming .wait 6, _, _, ⟨_, _, _, _, _, rfl⟩, fun _ => ⟨rfl, rfl⟩, rfl, rfl, ⟨⟨⟨3, 0, 1⟩, rfl, rfl, rfl, rfl⟩, rfl⟩, by decide⟩

end Flow
