import Verif.Model.Launch

/-
The answers of the tester to its requests: `tester/service.go` lines 106-241.

Not modelled: the router, the headers of the answers, the text of the bodies, the requests for options and status, logging.
-/

namespace Flow.Launch

/-- What the sender of a request gets: the identifier of an instance (status 200), an empty body with status 200, status 400 with
the text of an error, or nothing, since the handler panicked and the HTTP server closes the connection. -/
inductive Answer
  | identifier (id : String)
  | empty
  | refused (e : Err)
  | aborted

/-- Body of a start request, tester/request.go lines 163-170. Interceptor and patch are left out. -/
structure StartRequest where
  uri : String
  attrs : AMap String Val := []
  data : AMap String Val := []

/-- Body of a restart or resume request, tester/request.go lines 174-188; the state is a pointer, nil if the body has none. -/
structure StateRequest where
  state : Option Restored
  data : AMap String Val := []

/-- What the runner returns for a run: `none` for a panic. The runner is that of the core library (`runner.NewDirect`); it waits for
the end of the run and returns the first result it was told (action.go lines 365-372). Simplification: what a run without request
for the identifier returns is left out. -/
def Outcome.results : Outcome → Option (Except Err (AMap String Val))
  | .error e => some (.error e)
  | .panic => none
  | .started l => some (.ok (if l.returnId then [("id", .str l.inst.id)] else []))
  | .restarted l => some (.ok (if l.returnId then [("id", .str l.inst.id)] else []))

/-- service.go lines 118-146, 173-196 and 222-240; `idAttr.(string)` panics for another value. -/
def answerFor : Option (Except Err (AMap String Val)) → Answer
  | none => .aborted
  | some (.error e) => .refused e
  | some (.ok m) =>
    match m.get? "id" with
    | none => .empty
    | some (.str s) => .identifier s
    | some _ => .aborted

/-- `StartFlow`, service.go lines 106-147. The request is the decoded body or the error of the decoder. -/
def World.serveStart (w : World) (env : Env) : Except Err StartRequest → Answer
  | .error e => .refused e
  | .ok q => answerFor (w.testStart env q.uri q.attrs q.data).results

/-- `RestartFlow`, service.go lines 153-197. Without state `FlowURI()` dereferences nil (tester/request.go line 97). -/
def World.serveRestart (w : World) (env : Env) : Except Err StateRequest → Answer
  | .error e => .refused e
  | .ok q =>
    match q.state with
    | none => .aborted
    | some r => answerFor (w.testRestart env r q.data).results

/-- The deferred function of `ResumeFlow`, service.go lines 209-213: after a panic the handler returns without having written
anything, which is an empty answer with status 200. -/
def recovered : Answer → Answer
  | .aborted => .empty
  | a => a

/-- `ResumeFlow`, service.go lines 203-241. -/
def World.serveResume (w : World) (env : Env) : Except Err StateRequest → Answer
  | .error e => .refused e
  | .ok q =>
    match q.state with
    | none => recovered .aborted
    | some r => recovered (answerFor (w.testResume env r q.data).results)

end Flow.Launch
