import Verif.Model.Basic

/-
The HTTP server of the flow tester, tester/server.go, together with the goroutine that serves its listener and the
goroutines that process requests: a state machine with one step per call or per step of a goroutine. What is sent over
the connections is left out; requests are processed by the handlers of tester/service.go (see Launch).
-/

namespace Flow.Srv

/-- `make(chan bool, 50000)`, server.go line 68. -/
def capacity : Nat := 50000

/-- What happened, as the caller and the clients see it. -/
inductive Ev
  /-- `Start` returned: `none` or the error -/
  | start (r : Option String)
  /-- `Stop` returned -/
  | stop (r : Option String)
  /-- `WaitStop` returned -/
  | waited (r : Option String)
  /-- a client got a connection -/
  | connect
  /-- the handler of the tester begins to process a request -/
  | begin
  /-- it has processed a request -/
  | finish
  deriving DecidableEq

/-- `Server`, server.go lines 27-35. -/
structure State where
  /-- `s.Handler != nil` -/
  handler : Bool := true
  /-- `s.listener != nil` -/
  listener : Bool := false
  /-- the listener accepts connections -/
  accepting : Bool := false
  /-- the goroutine of lines 72-83 runs: `serverGroup` is not zero -/
  serving : Bool := false
  /-- `s.lastError` -/
  lastError : Option String := none
  /-- open connections -/
  conns : Nat := 0
  /-- requests that wait in line 147 for a place in `clientsGroup` -/
  queued : Nat := 0
  /-- `len(s.clientsGroup)` -/
  clients : Nat := 0
  /-- events, latest first -/
  trace : List Ev := []

def State.emit (s : State) (ev : Ev) : State := { s with trace := ev :: s.trace }

/-- `IsStarted`, server.go lines 103-113. -/
def State.isStarted (s : State) : Bool := s.listener || decide (0 < s.clients)

/-- `Start`, server.go lines 44-86; `r` is the outcome of `net.Listen`. -/
def start (s : State) (r : Option String) : State :=
  if s.handler = false then s.emit (.start (some "no server handler set"))
  else if s.listener then s.emit (.start (some "server already started"))
  else
    match r with
    | some m => s.emit (.start (some m))
    | none => { s with listener := true, accepting := true, serving := true, clients := 0 }.emit (.start none)

/-- `Stop`, server.go lines 89-99. Closing a listener that is closed is an error. -/
def stop (s : State) : State :=
  if s.listener = false then s.emit (.stop (some "server not started"))
  else if s.accepting = false then s.emit (.stop (some "use of closed network connection"))
  else { s with accepting := false }.emit (.stop s.lastError)

/-- `s.lastError = err`, server.go lines 75-82: the error of a closed listener is dropped. -/
def served (s : State) (r : Option String) : State :=
  match r with
  | none => { s with serving := false }
  | some m => { s with serving := false, accepting := false, lastError := some m }

/-- The steps. -/
inductive Label
  | start (r : Option String)
  | stop
  /-- `Serve` accepts a connection -/
  | accept
  /-- a client closes its connection -/
  | hangup
  /-- a request arrives on a connection, which exists also after the listener was closed -/
  | arrive
  /-- `sh.clientsGroup <- true`, line 147, possible only if there is a place -/
  | enter
  /-- the handler has returned: `<-sh.clientsGroup`, line 149 -/
  | leave
  /-- `Serve` returns because the listener is closed (`none`), or because accepting failed, lines 75-82 -/
  | served (r : Option String)
  /-- `WaitStop` sees no clients, lines 130-133 -/
  | idle
  /-- the time of `WaitStop` is over, lines 134-136 -/
  | timeout
  /-- `WaitStop` of a server that is not started, lines 119-121 -/
  | notStarted

/-- One step, if it is possible. -/
def step (s : State) : Label → Option State
  | .start r => some (start s r)
  | .stop => some (stop s)
  | .accept => if s.serving && s.accepting then some ({ s with conns := s.conns + 1 }.emit .connect) else none
  | .hangup => if s.conns = 0 then none else some { s with conns := s.conns - 1 }
  | .arrive => if s.conns = 0 then none else some { s with queued := s.queued + 1 }
  | .enter =>
    if s.queued = 0 then none
    else if s.clients < capacity then some ({ s with queued := s.queued - 1, clients := s.clients + 1 }.emit .begin) else none
  | .leave => if s.clients = 0 then none else some ({ s with clients := s.clients - 1 }.emit .finish)
  | .served r => if s.serving && (r.isSome || !s.accepting) then some (served s r) else none
  | .idle => if s.listener && !s.serving && decide (s.clients = 0) then some (s.emit (.waited s.lastError)) else none
  | .timeout =>
    if s.listener && !s.serving then
      some (s.emit (.waited (some ("WaitStop error, timeout waiting for " ++ toString s.clients ++ " client(s) to finish"))))
    else none
  | .notStarted => if s.listener then none else some (s.emit (.waited (some "server not started")))

/-- The states that are reached from a server that `NewServer` made; `h`: a handler was given. -/
inductive Reach (h : Bool) : State → Prop
  | init : Reach h { handler := h }
  | step {s s' : State} {l : Label} (hr : Reach h s) (hs : step s l = some s') : Reach h s'

end Flow.Srv
