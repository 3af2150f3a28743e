import Verif.Model.Delays

/-
The verdicts of a unit test: what the interceptor is told about activities and assertions while a flow is executed
(`instance/util.go` lines 128-204 and 276-303, `action.go` lines 448-506, and the places that call them).

Not modelled: the messages and the details of the evaluation beside the verdicts. Simplification: the field `assertErr` of the
engine's own interceptors says whether there is an assertion of an unsupported type, here it is `Check.primitive`; nothing relates the
two.
-/

namespace Flow

/-- support/interceptor.go lines 18-24. -/
inductive Verdict
  | notExecuted
  | pass
  | fail
  | mocked
  | assertionNotExecuted
  deriving DecidableEq

/-- The type of a task interceptor, support/interceptor.go lines 10-16. -/
inductive WatchType
  | activity
  | exception
  | other
  deriving DecidableEq

/-- `Assertion`, support/interceptor.go lines 84-92: is the expression the empty string, is the type `Primitive`, and the result. -/
structure Check where
  empty : Bool := false
  primitive : Bool := true
  result : Verdict := .notExecuted
  deriving DecidableEq

/-- `TaskInterceptor`, support/interceptor.go lines 72-82. -/
structure Report where
  type : WatchType
  result : Verdict := .notExecuted
  checks : List Check := []
  deriving DecidableEq

/-- The task interceptors by identifier. -/
abbrev Book := String → Option Report

/-- What becomes of the expression of an assertion: it is no expression, its evaluation fails, or its value as a boolean (`false` if the
value cannot be converted). -/
inductive Judgement
  | invalid
  | failed
  | value (b : Bool)
  deriving DecidableEq

/-- The expressions of the assertions: the state, the flow instance in whose scope it is evaluated, the identifier of the task interceptor, and the
position of the assertion. -/
abbrev Judge := Eng → Nat → String → Nat → Judgement

/-- `applyPrimitiveAssertion`, util.go lines 180-204. -/
def Judgement.holds : Judgement → Bool
  | .value b => b
  | _ => false

/-- The loop of `applyAssertionInterceptor`, util.go lines 139-175, for an interceptor of the type; `k` is the position. -/
def assertChecks (J : Nat → Judgement) : Nat → List Check → List Check
  | _, [] => []
  | k, c :: cs =>
    if c.empty then { c with result := .notExecuted } :: assertChecks J (k + 1) cs
    else if c.primitive = false then c :: cs
    else { c with result := if (J k).holds then .pass else .fail } :: assertChecks J (k + 1) cs

/-- `applyAssertionInterceptor`, util.go lines 136-176. -/
def Report.assert (J : Nat → Judgement) (ty : WatchType) (r : Report) : Report :=
  if r.type = ty then { r with checks := assertChecks J 0 r.checks }
  else { r with checks := r.checks.map (fun c => { c with result := .assertionNotExecuted }) }

namespace Book

/-- Changing one entry. -/
def mod (b : Book) (key : String) (f : Report → Report) : Book := fun k => if k = key then (b k).map f else b k

/-- `setActivityExecutionStatus`, util.go lines 276-289. -/
def mark (b : Book) (key : String) (v : Verdict) : Book := b.mod key (fun r => { r with result := v })

/-- `applyAssertionInterceptor`, util.go lines 128-178. -/
def assert (b : Book) (key : String) (ty : WatchType) (J : Nat → Judgement) : Book := b.mod key (Report.assert J ty)

end Book

namespace Eng

/-- The identifier of the interceptor of a task, util.go line 134. -/
def watchKey (e : Eng) (i : Nat) (t : TaskId) : String :=
  match e.insts[i]? with
  | none => ""
  | some I => I.defn.name ++ "-" ++ t

/-- The part of `EvalActivity` after the activity is done, taskinst.go lines 401-446. -/
def bookDone (env : Env) (J : Judge) (b : Book) (e : Eng) (i o : Nat) (key : String) (ob : Obj) (td : TaskDef) : Book :=
  match env.outSchema e i o with
  | some _ => b
  | none =>
    match andThen (outputInterceptor env e i o ob td) (fun e1 => storeOutputs env e1 i o ob.task.id td) with
    | (_, some _) => b
    | (e2, none) => b.assert key .activity (J e2 i key)

/-- `EvalActivity` after the input interceptor, taskinst.go lines 343-446. -/
def bookWith (env : Env) (J : Judge) (b : Book) (p : Eng × Bool) (i o : Nat) (key : String) (ob : Obj) (td : TaskDef) : Book :=
  if p.2 = false then bookDone env J b p.1 i o key ob td
  else
  match env.inSchema p.1 i o with
  | some _ => b
  | none =>
  if mocked env p.1 i ob then bookDone env J (b.mark key .mocked) p.1 i o key ob td
  else
  match callActivity env p.1 i o ob td with
  | (e3, .error err, panicked) =>
    if panicked then b else (b.mark key .fail).assert key .exception (J (e3.evalErrorData i ob.task.id err) i key)
  | (e3, .ok true, _) => bookDone env J (b.mark key .pass) e3 i o key ob td
  | (_, .ok false, _) => b.mark key .pass

/-- `TaskInst.EvalActivity`, taskinst.go lines 298-447. -/
def bookOnce (env : Env) (J : Judge) (b : Book) (e : Eng) (i o : Nat) : Book :=
  match e.obj? i o with
  | none => b
  | some ob =>
  match e.taskDef? i ob.task with
  | none => b
  | some td =>
  match applyInputMapper env e i o td.name with
  | (_, some _) => b
  | (e1, none) => bookWith env J b (inputInterceptor env e1 i o ob) i o (e.watchKey i ob.task.id) ob td

/-- The end of `PostEvalActivity`, taskinst.go lines 504-532. -/
def bookStore (env : Env) (J : Judge) (b : Book) (e : Eng) (i o : Nat) (key : String) (ob : Obj) (td : TaskDef) : Book :=
  match andThen (outputInterceptor env e i o ob td) (fun e1 =>
      if td.accumulates then e1.accumulate i o ob.task.id else outputMapper env e1 i o td.name) with
  | (_, some _) => b
  | (e2, none) => b.assert key .activity (J e2 i key)

/-- `TaskInst.PostEvalActivity`, taskinst.go lines 463-535. -/
def bookPost (env : Env) (J : Judge) (b : Book) (e : Eng) (i o : Nat) : Book :=
  match e.obj? i o with
  | none => b
  | some ob =>
  match e.taskDef? i ob.task with
  | none => b
  | some td =>
  match callPost env (e.modI i (fun I => { I with trace := .postAct o ob.task :: I.trace })) i o td with
  | (_, .error _) => b
  | (e1, .ok done) =>
  match (e1.obj? i o).bind (·.returnError) with
  | some _ => b
  | none => if done then bookStore env J b e1 i o (e.watchKey i ob.task.id) ob td else b

/-! ### The evaluations of a task -/

/-- A call of `EvalActivity` or of `PostEvalActivity` (`post`), and the state in which it is made. -/
structure Trial where
  post : Bool
  before : Eng

/-- `retryEval` followed by `evalActivity`, retry.go lines 56-73. -/
def retryTrials (env : Env) : Nat → Eng → Nat → Nat → List Trial
  | 0, e, i, o => [⟨false, e.setRetry i o 0⟩]
  | n + 1, e, i, o =>
    ⟨false, e.setRetry i o (n + 1)⟩ ::
      match evalOnce env (e.setRetry i o (n + 1)) i o with
      | (e1, .error err) => if err.retriable then retryTrials env n e1 i o else []
      | _ => []

/-- What `evalActivity` and `PostEval` do after the error `err`, taskbehavior.go lines 127-148 and 170-190. -/
def moreTrials (env : Env) (e1 : Eng) (may : Bool) (i o : Nat) : List Trial :=
  if may && e1.hasRetry i o then
    match getRetry env e1 i o with
    | (_, .error _) => []
    | (e2, .ok c) => if 0 < c then retryTrials env (c.toNat - 1) e2 i o else []
  else []

/-- `evalActivity`, taskbehavior.go lines 116-152. -/
def actTrials (env : Env) (e : Eng) (i o : Nat) : List Trial :=
  ⟨false, e⟩ ::
    match evalOnce env e i o with
    | (_, .ok _) => []
    | (e1, .error err) => moreTrials env e1 err.retriable i o

/-- `Eval` of the behavior of the task. -/
def evalTrials (env : Env) (e : Eng) (i o : Nat) (td : TaskDef) : List Trial :=
  match td.kind with
  | .basic => actTrials env e i o
  | .iterator =>
    match iterRound env e i o td with
    | none => []
    | some e1 => actTrials env e1 i o
  | .doWhile => actTrials env (e.dwInit i o) i o

/-- `PostEval` of the behavior of the task: only tasks that are no loops retry. -/
def postTrials (env : Env) (e : Eng) (i o : Nat) (td : TaskDef) : List Trial :=
  match td.kind with
  | .basic =>
    ⟨true, e⟩ ::
      match postOnce env e i o with
      | (_, .ok _) => []
      | (e1, .error err) => moreTrials env e1 err.isAct i o
  | .iterator => [⟨true, e⟩]
  | .doWhile => [⟨true, e.dwInit i o⟩]

/-- `execTask` evaluates task instance `o` of flow instance `i`, ind_instance.go lines 401-432. -/
def execTrials (env : Env) (e : Eng) (i o : Nat) : List Trial :=
  match e.obj? i o with
  | none => []
  | some ob =>
    match e.taskDef? i ob.task with
    | none => []
    | some td =>
      match ob.status with
      | .waiting => postTrials env e i o td
      | .skipped => []
      | .done => []
      | _ => evalTrials env e i o td

/-- What a trial does to the book. -/
def bookTrial (env : Env) (J : Judge) (i o : Nat) (b : Book) (t : Trial) : Book :=
  if t.post then bookPost env J b t.before i o else bookOnce env J b t.before i o

end Eng

/-- A run with the book of its interceptor and the trials so far, oldest first. -/
structure Tested where
  eng : Eng
  book : Book
  log : List (Nat × Nat × Eng.Trial) := []

namespace Tested

/-- One micro step. -/
def step (env : Env) (J : Judge) (s : Tested) : Tested :=
  match Timed.popped env s.eng with
  | none => { s with eng := s.eng.step env }
  | some (i, o, e) =>
    { eng := s.eng.step env
      book := (e.execTrials env i o).foldl (Eng.bookTrial env J i o) s.book
      log := s.log ++ (e.execTrials env i o).map (fun t => (i, o, t)) }

def run (env : Env) (J : Judge) (s : Tested) : Nat → Tested
  | 0 => s
  | n + 1 => step env J (run env J s n)

def init (env : Env) (id uri : String) (d : Def) (inputs : AMap String Val) (b : Book) : Tested :=
  { eng := Eng.init env id uri d inputs, book := b }

end Tested

/-! ### The assertions of the flow -/

/-- One assertion of the flow, action.go lines 459-500. -/
def flowCheck (j : Judgement) (c : Check) : Check :=
  if c.empty then { c with result := .notExecuted } else { c with result := if j.holds then .pass else .fail }

def flowChecks (J : Nat → Judgement) : Nat → List Check → List Check
  | _, [] => []
  | k, c :: cs => flowCheck (J k) c :: flowChecks J (k + 1) cs

/-- Has the expression of some assertion been evaluated? action.go lines 495-497. -/
def anyEvaluated (J : Nat → Judgement) : Nat → List Check → Bool
  | _, [] => false
  | k, c :: cs =>
    (!c.empty && (match J k with
      | .value _ => true
      | _ => false)) || anyEvaluated J (k + 1) cs

/-- `FlowAction.applyAssertionInterceptor`, action.go lines 448-506, for the interceptor of the flow: the report and the result. -/
def Report.assertFlow (J : Nat → Judgement) (ty : WatchType) (r : Report) : Report × Bool :=
  if r.type = ty then
    ({ r with result := .pass, checks := flowChecks J 0 r.checks }, if ty = .exception then anyEvaluated J 0 r.checks else false)
  else ({ r with result := .pass, checks := r.checks.map (fun c => { c with result := .assertionNotExecuted }) }, false)

end Flow
