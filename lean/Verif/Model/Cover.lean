import Verif.Model.Engine

/-
Coverage: what an interceptor records about the execution of a flow (`support/interceptor.go` lines 26-67 and 98-130). The
recording does not influence the execution as long as the interceptor has a coverage object; `handleBare` and `stepBare` model
an interceptor without one.
-/

namespace Flow

/-- An entry of `ActivityCoverage`, `TransitionCoverage` or `SubFlowCoverage`, interceptor.go lines 98-130. Model-only: the
index `inst` of the flow instance (Go records its name only). Not modelled: inputs, outputs, errors and link names, which
are copied if `CollectIO` is set. The link is given by its definition (Go: name, type, ends and expression). -/
inductive Cov
  | activity (inst : Nat) (flow : String) (task : TaskId) (main : Bool)
  | link (inst : Nat) (flow : String) (l : LinkDef) (main : Bool)
  | subflow (host : Nat) (flow activity sub : String)

namespace Eng

/-- `!inst.isHandlingError` of the top-level instance. -/
def topMain (e : Eng) : Bool := !(((e.insts[0]?).map (·.handling)).getD false)

/-- `addLinkToCoverage`, linkinst.go lines 36-74, for the links that are given the status true. Simplification: the entries
are in the order of the links; in Go an `otherwise` link comes last. -/
def covLinks (i : Nat) (I : Inst) (rows : List (LinkDef × LinkStatus × Nat)) : List Cov :=
  (rows.filter (fun r => r.2.1 = .true)).map (fun r => .link i I.defn.name r.1 (!I.handling))

/-- `addActivityToCoverage`, ind_instance.go lines 753-790: the flow name is that of the flow instance of the task, the flag
is that of the top-level instance. -/
def covActivity (e : Eng) (i : Nat) (I : Inst) (t : TaskRef) : Cov := .activity i I.defn.name t.id e.topMain

/-- The rows of `Done`, whether it succeeds or not. -/
def doneRowsAny (env : Env) (e : Eng) (i : Nat) (I : Inst) (t : TaskRef) : List (LinkDef × LinkStatus × Nat) :=
  match doneRows env.prio (env.link e i) (I.defn.toLinks t) with
  | .error (_, rows) => rows
  | .ok rows => rows

/-- Entries of `handleTaskDone` for a task that is not skipped, ind_instance.go lines 486-491: first the links, then the
activity, also if the evaluation of a link failed. -/
def covDone (env : Env) (e : Eng) (i : Nat) (t : TaskRef) : List Cov :=
  match e.insts[i]? with
  | none => []
  | some I => covLinks i I (doneRowsAny env e i I t) ++ [e.covActivity i I t]

/-- Entries of `handleTaskError`, ind_instance.go lines 605-614: first the activity, then the links. -/
def covError (e : Eng) (i : Nat) (t : TaskRef) : List Cov :=
  match e.insts[i]? with
  | none => []
  | some I =>
    e.covActivity i I t :: covLinks i I ((errorRows (I.defn.toLinks t)).getD [])

/-- Entries of `execTask` after the evaluation, ind_instance.go lines 434-451. -/
def covResult (env : Env) (e : Eng) (i : Nat) (t : TaskRef) : EvalOut → List Cov
  | .err _ => e.covError i t
  | .res .done => e.covDone env i t
  | .res .skip => e.covDone env i t
  | _ => []

/-- `addSubFlowToCoverage`, ind_instance.go lines 792-804, called by `StartSubFlow`, util.go line 375: one entry for every
subflow that the evaluation of the task started, with the names of flow, task and subflow. -/
def covSubs (e e' : Eng) (i : Nat) (flow name : String) : List Cov :=
  (e'.insts.drop e.insts.length).map (fun J => .subflow i flow name J.defn.name)

/-- Entries of one evaluation and its result. -/
def covEval (env : Env) (e : Eng) (i : Nat) (t : TaskRef) (flow name : String) (p : Eng × EvalOut) : List Cov :=
  covSubs e p.1 i flow name ++ covResult env p.1 i t p.2

/-- Entries of `execTask`, ind_instance.go lines 401-468. -/
def covExec (env : Env) (e : Eng) (i o : Nat) : List Cov :=
  match e.insts[i]? with
  | none => []
  | some I =>
    match I.objs[o]? with
    | none => []
    | some ob =>
      match I.defn.task? ob.task with
      | none => []
      | some td =>
        match ob.status with
        | .waiting => covEval env e i ob.task I.defn.name td.name (postKind env e i o td)
        | .skipped => []
        | .done => []
        | _ => covEval env e i ob.task I.defn.name td.name (evalKind env e i o td)

/-- Entries of `DoStep`, ind_instance.go lines 298-336. -/
def covDoStep (env : Env) (e : Eng) : List Cov :=
  match e.insts[0]? with
  | none => []
  | some I =>
    if I.status = .active then
      match e.queue[env.pick e % e.queue.length]? with
      | none => []
      | some w =>
        covExec env { e with stepID := e.stepID + 1, queue := e.queue.eraseIdx (env.pick e % e.queue.length)
                             qlog := .removed w :: e.qlog } w.inst w.obj
    else []

/-- Entries of one step: skipped tasks, entered tasks and released tasks add none (`Skip` gives links the status skipped,
taskbehavior.go lines 309-344). -/
def covStep (env : Env) (e : Eng) : List Cov :=
  match e.stack with
  | [] => e.covDoStep env
  | _ => []

end Eng

/-- A run with an interceptor that has a coverage object; the entries, oldest first. -/
structure CovRun where
  eng : Eng
  cov : List Cov := []

namespace CovRun

def step (env : Env) (s : CovRun) : CovRun := { eng := s.eng.step env, cov := s.cov ++ s.eng.covStep env }

def run (env : Env) (s : CovRun) : Nat → CovRun
  | 0 => s
  | n + 1 => step env (run env s n)

/-- The flow has been started: entering the start tasks adds no entries. -/
def init (env : Env) (id uri : String) (d : Def) (inputs : AMap String Val) : CovRun := { eng := Eng.init env id uri d inputs }

end CovRun

namespace Eng

/-- The panic of `pi.Coverage.… = append(…)` for a nil `Coverage`, interceptor.go lines 57-67, handled by the deferred
function of `execTask`, ind_instance.go lines 403-424. -/
def nilCoverage (env : Env) (e : Eng) (i o : Nat) (t : TaskRef) (name : String) : Eng :=
  handleResult env e i o t name (.panic "runtime error: invalid memory address or nil pointer dereference")

/-- `execTask` after the evaluation, ind_instance.go lines 434-467, with an interceptor that has no coverage object: adding
the first entry panics. Simplification: the links that `Done` marks before the panic are left unmarked. -/
def handleBare (env : Env) (e : Eng) (i o : Nat) (t : TaskRef) (name : String) (r : EvalOut) : Eng :=
  match r with
  | .err _ => nilCoverage env (e.setStatus i o .failed) i o t name
  | .res .done => nilCoverage env (e.modI i (fun I => (I.findLinks (I.defn.toLinks t)).setTaskStatus o .done)) i o t name
  | .res .skip => nilCoverage env (e.modI i (fun I => (I.findLinks (I.defn.toLinks t)).setTaskStatus o .done)) i o t name
  | r => handleResult env e i o t name r

/-- `execTask` with such an interceptor. Simplification: tasks that start subflows are treated as if the entry for the
subflow could be added; in Go that panics, too. -/
def execBare (env : Env) (e : Eng) (i o : Nat) : Eng :=
  match e.obj? i o with
  | none => e
  | some ob =>
    match e.taskDef? i ob.task with
    | none => e
    | some td =>
      match ob.status with
      | .waiting => handleBare env (postKind env e i o td).1 i o ob.task td.name (postKind env e i o td).2
      | .skipped => e
      | .done => e
      | _ => handleBare env (evalKind env e i o td).1 i o ob.task td.name (evalKind env e i o td).2

/-- `DoStep`, ind_instance.go lines 298-336, with such an interceptor. -/
def doStepBare (env : Env) (e : Eng) : Eng :=
  match e.insts[0]? with
  | none => e
  | some I =>
    let e1 := { e with stepID := e.stepID + 1 }
    if I.status = .active then
      match e.queue[env.pick e % e.queue.length]? with
      | none => e1
      | some w =>
        execBare env { e1 with queue := e.queue.eraseIdx (env.pick e % e.queue.length), qlog := .removed w :: e.qlog } w.inst w.obj
    else e1

/-- One step with such an interceptor. -/
def stepBare (env : Env) (e : Eng) : Eng :=
  match e.stack with
  | [] => e.doStepBare env
  | _ => e.step env

def runBare (env : Env) (e : Eng) : Nat → Eng
  | 0 => e
  | n + 1 => stepBare env (runBare env e n)

end Eng

end Flow
