import Verif.Model.Verdicts
import Verif.Spec.Attempts
import Verif.Spec.Loops

/-
What the verdicts of a unit test are expected to say.
-/

namespace Flow.Spec

open Flow

/-- The state after the trial. -/
def trialAfter (env : Env) (i o : Nat) (t : Eng.Trial) : Eng :=
  if t.post then (Eng.postOnce env t.before i o).1 else (Eng.evalOnce env t.before i o).1

/-- The task the trial is of. -/
def trialTask (i o : Nat) (t : Eng.Trial) : Option TaskRef := (t.before.obj? i o).map (·.task)

/-- The trial is watched by the interceptor `key`: the name of the flow, a hyphen, and the task. -/
def WatchedBy (i o : Nat) (t : Eng.Trial) (key : String) : Prop :=
  ∃ I ob, t.before.insts[i]? = some I ∧ I.objs[o]? = some ob ∧ key = I.defn.name ++ "-" ++ ob.task.id

/-- The activity of the task was asked again, after it had been waiting, and did not answer that it is still waiting. -/
def NotStillWaiting (env : Env) (i o : Nat) (e : Eng) : Prop :=
  ∀ ob td, e.obj? i o = some ob → e.taskDef? i ob.task = some td → td.act = .async →
    ∀ e', e' = e.modI i (fun I => { I with trace := .postAct o ob.task :: I.trace }) → (env.post e' i o).res ≠ .wait

/-- The trial ended with success. -/
def TrialSucceeded (env : Env) (i o : Nat) (t : Eng.Trial) : Prop :=
  if t.post then (Eng.postOnce env t.before i o).2 = .ok () ∧ NotStillWaiting env i o t.before
  else (Eng.evalOnce env t.before i o).2 = .ok true

/-- The activity was called in the trial, and the trial ended with an error, which is the error of the task. -/
def TrialFailed (env : Env) (i o : Nat) (t : Eng.Trial) : Prop :=
  t.post = false ∧ ∃ err task, trialTask i o t = some task ∧ (Eng.evalOnce env t.before i o).2 = .error err ∧
    calls (trialAfter env i o t) i = .evalAct o task :: calls t.before i ∧
    attrAt (trialAfter env i o t) i ("_E." ++ task.id) = some (errorObj task.id err)

/-- The activity was called in the trial. -/
def TrialCalled (env : Env) (i o : Nat) (t : Eng.Trial) : Prop :=
  t.post = false ∧ ∃ task, trialTask i o t = some task ∧ calls (trialAfter env i o t) i = .evalAct o task :: calls t.before i

/-- What a trial may do to the status of the activity in the report of the test. -/
inductive StatusNoted (env : Env) (i o : Nat) (t : Eng.Trial) (v : Verdict) : Verdict → Prop
  | kept : StatusNoted env i o t v v
  | mocked : StatusNoted env i o t v .mocked
  | pass (h : TrialCalled env i o t) : StatusNoted env i o t v .pass
  | fail (h : TrialFailed env i o t) : StatusNoted env i o t v .fail

/-- How a trial has to end for the assertions of an interceptor. -/
def TrialEnds (env : Env) (i o : Nat) (t : Eng.Trial) : WatchType → Prop
  | .activity => TrialSucceeded env i o t
  | .exception => TrialFailed env i o t
  | .other => False

/-- The true verdict of an assertion. -/
def trueVerdict (c : Check) (j : Judgement) : Verdict :=
  if c.empty then .notExecuted
  else match j with
    | .value true => .pass
    | _ => .fail

/-- The assertions have the verdicts that are true in the state after the trial. -/
def JudgedBy (env : Env) (J : Judge) (i o : Nat) (t : Eng.Trial) (key : String) (before after : List Check) : Prop :=
  after.length = before.length ∧
  ∀ (k : Nat) (c : Check), before[k]? = some c → after[k]? = some { c with result := trueVerdict c (J (trialAfter env i o t) i key k) }

/-- All assertions of the book have the supported type. -/
def AllPrimitive (b : Book) : Prop := ∀ key r, b key = some r → ∀ c ∈ r.checks, c.primitive = true

/-- No assertion makes the execution fail. -/
def NoModeError (env : Env) : Prop := ∀ key tc, env.icp key = some tc → tc.assertErr = false

/-- What one trial has done to the assertions of the interceptor `key`. -/
inductive Noted (env : Env) (J : Judge) (i o : Nat) (t : Eng.Trial) (key : String) (r r' : Report) : Prop
  /-- nothing, since the activity neither succeeded nor failed -/
  | kept (hs : ¬ TrialSucceeded env i o t) (h : r'.checks = r.checks)
  /-- they were judged -/
  | judged (he : TrialEnds env i o t r.type) (h : JudgedBy env J i o t key r.checks r'.checks)
  /-- they were not judged, since the trial did not end as they require -/
  | unfit {ty : WatchType} (hne : r.type ≠ ty) (he : TrialEnds env i o t ty)
      (h : r'.checks = r.checks.map (fun c => { c with result := .assertionNotExecuted }))

/-- What all trials together have done to them: they are as in the beginning, or as the last trial that was to be noted left them. -/
inductive NotedLast (env : Env) (J : Judge) (key : String) (r r' : Report) (log : List (Nat × Nat × Eng.Trial)) : Prop
  | never (hs : ∀ x ∈ log, WatchedBy x.1 x.2.1 x.2.2 key → ¬ TrialSucceeded env x.1 x.2.1 x.2.2) (h : r'.checks = r.checks)
  | judged (l1 l2 : List (Nat × Nat × Eng.Trial)) (i o : Nat) (t : Eng.Trial) (hl : log = l1 ++ (i, o, t) :: l2) (hw : WatchedBy i o t key)
      (hs : ∀ x ∈ l2, WatchedBy x.1 x.2.1 x.2.2 key → ¬ TrialSucceeded env x.1 x.2.1 x.2.2)
      (he : TrialEnds env i o t r.type) (before : List Check) (hb : before.map (fun c => (c.empty, c.primitive)) = r.checks.map (fun c => (c.empty, c.primitive)))
      (h : JudgedBy env J i o t key before r'.checks)
  | unfit (l1 l2 : List (Nat × Nat × Eng.Trial)) (i o : Nat) (t : Eng.Trial) (hl : log = l1 ++ (i, o, t) :: l2) (hw : WatchedBy i o t key)
      (hs : ∀ x ∈ l2, WatchedBy x.1 x.2.1 x.2.2 key → ¬ TrialSucceeded env x.1 x.2.1 x.2.2)
      {ty : WatchType} (hne : r.type ≠ ty) (he : TrialEnds env i o t ty)
      (h : r'.checks = r.checks.map (fun c => { c with result := .assertionNotExecuted }))

end Flow.Spec
