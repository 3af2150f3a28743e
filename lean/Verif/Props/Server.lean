import Verif.Spec.Server

/-!
Property theorems about starting and stopping the tester: C90.
-/

namespace Flow.Srv

/-- What the state says about the events. -/
structure Inv (s : State) : Prop where
  progress : inProgress s.trace = s.clients
  bound : s.clients ≤ capacity
  started : s.listener = true ↔ .start none ∈ s.trace
  idle : s.listener = false → s.serving = false ∧ s.accepting = false ∧ s.clients = 0 ∧ s.queued = 0 ∧ s.conns = 0 ∧ s.lastError = none
  accepting : s.accepting = true → Running s.trace
  closed : s.listener = true → s.accepting = false → s.lastError = none → .stop none ∈ s.trace
  served : s.serving = false → s.accepting = false
  lastErr : s.accepting = true → s.lastError = none

theorem inProgress_cons (ev : Ev) (tr : List Ev) :
    inProgress (ev :: tr) = inProgress tr + (if ev = .begin then 1 else 0) - (if ev = .finish then 1 else 0) := by
  unfold inProgress
  cases ev <;> simp <;> omega

theorem inv_init (h : Bool) : Inv { handler := h } :=
  ⟨rfl, Nat.zero_le _, Iff.intro (fun h => nomatch h) (fun h => nomatch h), (fun _ => ⟨rfl, rfl, rfl, rfl, rfl, rfl⟩),
    (fun h => nomatch h), (fun h => nomatch h), (fun _ => rfl), (fun _ => rfl)⟩

/-- An event that changes nothing else. -/
theorem Inv.emit {s : State} (h : Inv s) (ev : Ev) (h1 : ev ≠ .begin) (h2 : ev ≠ .finish) (h3 : ev ≠ .start none)
    (h4 : ev ≠ .stop none) : Inv (s.emit ev) := by
  refine ⟨?_, h.bound, ?_, h.idle, ?_, ?_, h.served, h.lastErr⟩
  · simp only [State.emit, inProgress_cons, h1, h2, if_false]; rw [h.progress]; omega
  · simp only [State.emit, List.mem_cons]
    exact h.started.trans ⟨Or.inr, fun hx => hx.resolve_left (Ne.symm h3)⟩
  · intro ha
    have := h.accepting ha
    simp only [State.emit]
    cases ev with
    | start r => cases r with
      | none => exact absurd rfl h3
      | some m => exact this
    | stop r => cases r with
      | none => exact absurd rfl h4
      | some m => exact this
    | _ => exact this
  · intro ha hb hc
    exact List.mem_cons_of_mem _ (h.closed ha hb hc)

theorem inv_step {s s' : State} {l : Label} (h : Inv s) (hs : step s l = some s') : Inv s' := by
  cases l with
  | start r =>
    simp only [step, Option.some.injEq] at hs; subst hs
    unfold start
    split
    · exact h.emit _ nofun nofun nofun nofun
    split
    · exact h.emit _ nofun nofun nofun nofun
    · rename_i hl
      have hl : s.listener = false := by simpa using hl
      obtain ⟨h1, h2, h3, h4, h5, h6⟩ := h.idle hl
      cases r with
      | some m => exact h.emit _ nofun nofun (by simp) nofun
      | none =>
        refine ⟨?_, Nat.zero_le _, Iff.intro (fun _ => List.mem_cons_self ..) (fun _ => rfl), (fun hx => nomatch hx), fun _ => trivial,
          (fun _ hx => nomatch hx), (fun hx => nomatch hx), fun _ => h6⟩
        have := h.progress
        rw [h3] at this
        simp only [State.emit, inProgress_cons, this]
        simp
  | stop =>
    simp only [step, Option.some.injEq] at hs; subst hs
    unfold stop
    split
    · exact h.emit _ nofun nofun nofun (by simp)
    rename_i hl
    have hl : s.listener = true := by simpa using hl
    split
    · exact h.emit _ nofun nofun nofun (by simp)
    · refine ⟨?_, h.bound, ?_, (fun hx => by rw [show s.listener = false from hx] at hl; cases hl), (fun hx => nomatch hx), ?_, (fun _ => rfl), (fun hx => nomatch hx)⟩
      · simp [State.emit, inProgress_cons, h.progress]
      · simp [State.emit, h.started]
      · intro _ _ hx
        have hx : s.lastError = none := hx
        simp [State.emit, hx]
  | accept =>
    simp only [step] at hs
    split at hs
    · rename_i hc
      cases hs
      have hc : s.serving = true ∧ s.accepting = true := by simpa using hc
      refine Inv.emit (s := { s with conns := s.conns + 1 }) ⟨h.progress, h.bound, h.started, fun hx => ?_, h.accepting, h.closed, h.served, h.lastErr⟩ _ nofun nofun nofun nofun
      have := (h.idle hx).1
      rw [hc.1] at this; cases this
    · cases hs
  | hangup =>
    simp only [step] at hs
    split at hs
    · cases hs
    · rename_i hc
      cases hs
      exact ⟨h.progress, h.bound, h.started, fun hx => absurd (h.idle hx).2.2.2.2.1 hc, h.accepting, h.closed, h.served, h.lastErr⟩
  | arrive =>
    simp only [step] at hs
    split at hs
    · cases hs
    · rename_i hc
      cases hs
      exact ⟨h.progress, h.bound, h.started, fun hx => absurd (h.idle hx).2.2.2.2.1 hc, h.accepting, h.closed, h.served, h.lastErr⟩
  | enter =>
    simp only [step] at hs
    split at hs
    · cases hs
    · rename_i hc
      split at hs
      · rename_i hlt
        cases hs
        refine ⟨?_, hlt, ?_, fun hx => absurd (h.idle hx).2.2.2.1 hc, h.accepting, fun ha hb hd => List.mem_cons_of_mem _ (h.closed ha hb hd), h.served, h.lastErr⟩
        · simp [State.emit, inProgress_cons, h.progress]
        · simp [State.emit, h.started]
      · cases hs
  | leave =>
    simp only [step] at hs
    split at hs
    · cases hs
    · rename_i hc
      cases hs
      refine ⟨?_, ?_, ?_, fun hx => absurd (h.idle hx).2.2.1 hc, h.accepting, fun ha hb hd => List.mem_cons_of_mem _ (h.closed ha hb hd), h.served, h.lastErr⟩
      · simp only [State.emit, inProgress_cons, h.progress]; simp; omega
      · have := h.bound; simp only [State.emit]; omega
      · simp [State.emit, h.started]
  | served r =>
    simp only [step] at hs
    split at hs
    · rename_i hc
      cases hs
      have hl : s.listener = true := by
        cases hx : s.listener with
        | true => rfl
        | false => have := (h.idle hx).1; rw [this] at hc; simp at hc
      cases r with
      | none =>
        have hc : s.serving = true ∧ s.accepting = false := by simpa using hc
        exact ⟨h.progress, h.bound, h.started, fun hx => ⟨rfl, (h.idle hx).2⟩, h.accepting, h.closed, (fun _ => hc.2), h.lastErr⟩
      | some m =>
        refine ⟨h.progress, h.bound, h.started, fun hx => ?_, (fun hx => nomatch hx), (fun _ _ hx => nomatch hx), (fun _ => rfl), (fun hx => nomatch hx)⟩
        rw [show s.listener = false from hx] at hl; cases hl
    · cases hs
  | idle =>
    simp only [step] at hs
    split at hs
    · cases hs; exact h.emit _ nofun nofun nofun nofun
    · cases hs
  | timeout =>
    simp only [step] at hs
    split at hs
    · cases hs; exact h.emit _ nofun nofun nofun nofun
    · cases hs
  | notStarted =>
    simp only [step] at hs
    split at hs
    · cases hs
    · cases hs; exact h.emit _ nofun nofun nofun nofun

theorem inv_reach {h : Bool} {s : State} (hr : Reach h s) : Inv s := by
  induction hr with
  | init => exact inv_init h
  | step _ hs ih => exact inv_step ih hs

/-- The states in which an event happens. -/
def Cause (s : State) : Ev → Prop
  | .start none => s.listener = false ∧ s.handler = true
  | .stop none => s.accepting = true
  | .waited none => s.listener = true ∧ s.serving = false ∧ s.clients = 0 ∧ s.lastError = none
  | .connect => s.accepting = true
  | .begin => s.clients < capacity
  | .finish => 0 < s.clients
  | _ => True

/-- A step adds at most one event. -/
theorem step_trace {s s' : State} {l : Label} (hs : step s l = some s') :
    s'.trace = s.trace ∨ ∃ ev, s'.trace = ev :: s.trace ∧ Cause s ev := by
  cases l <;> simp only [step] at hs
  case start r =>
    cases hs; unfold start
    split
    · exact Or.inr ⟨_, rfl, trivial⟩
    split
    · exact Or.inr ⟨_, rfl, trivial⟩
    · rename_i h1 h2
      cases r
      · exact Or.inr ⟨_, rfl, by simpa using h2, by simpa using h1⟩
      · exact Or.inr ⟨_, rfl, trivial⟩
  case stop =>
    cases hs; unfold stop
    split
    · exact Or.inr ⟨_, rfl, trivial⟩
    split
    · exact Or.inr ⟨_, rfl, trivial⟩
    · rename_i h1
      refine Or.inr ⟨_, rfl, ?_⟩
      cases s.lastError
      · simpa [Cause] using h1
      · trivial
  case served r =>
    split at hs
    · cases hs; cases r <;> exact Or.inl rfl
    · cases hs
  case enter =>
    split at hs
    · cases hs
    split at hs
    · rename_i h1
      cases hs; exact Or.inr ⟨_, rfl, h1⟩
    · cases hs
  case accept =>
    split at hs
    · rename_i h1
      have h1 : s.serving = true ∧ s.accepting = true := by simpa using h1
      cases hs; exact Or.inr ⟨_, rfl, h1.2⟩
    · cases hs
  case leave =>
    split at hs
    · cases hs
    · rename_i h1
      cases hs; exact Or.inr ⟨_, rfl, Nat.pos_of_ne_zero h1⟩
  case idle =>
    split at hs
    · rename_i hc
      have hc : (s.listener = true ∧ s.serving = false) ∧ s.clients = 0 := by simpa using hc
      cases hs
      refine Or.inr ⟨_, rfl, ?_⟩
      cases he : s.lastError
      · exact ⟨hc.1.1, hc.1.2, hc.2, he⟩
      · trivial
    · cases hs
  case timeout =>
    split at hs
    · cases hs; exact Or.inr ⟨_, rfl, trivial⟩
    · cases hs
  case notStarted =>
    split at hs
    · cases hs
    · cases hs; exact Or.inr ⟨_, rfl, trivial⟩
  all_goals
    split at hs
    · cases hs
    · cases hs; exact Or.inl rfl

/-- Every event happened in a reachable state in which exactly the earlier events had happened. -/
theorem event_cause {h : Bool} {s : State} (hr : Reach h s) {post pre : List Ev} {ev : Ev} (ht : s.trace = post ++ ev :: pre) :
    ∃ s0, Reach h s0 ∧ s0.trace = pre ∧ Cause s0 ev := by
  induction hr generalizing post with
  | init => cases post <;> cases ht
  | step hr hs ih =>
    rename_i s s' l
    rcases step_trace hs with h1 | ⟨ev', h1, h2⟩
    · exact ih (h1 ▸ ht)
    · rw [h1] at ht
      cases post with
      | nil =>
        simp only [List.nil_append, List.cons.injEq] at ht
        obtain ⟨rfl, rfl⟩ := ht
        exact ⟨s, hr, rfl, h2⟩
      | cons x post =>
        simp only [List.cons_append, List.cons.injEq] at ht
        exact ih ht.2

/-! ### C90 -/

/-- C90: when `WaitStop` reports success, `Stop` has succeeded before and no request is being processed.
Missing for the full statement: requests on connections that are still open may be processed later
(`C90_negation_later`). -/
theorem C90_wait_partial {h : Bool} {s : State} (hr : Reach h s) {post pre : List Ev} (ht : s.trace = post ++ .waited none :: pre) :
    .stop none ∈ pre ∧ inProgress pre = 0 := by
  obtain ⟨s0, hr0, rfl, h1, h2, h3, h4⟩ := event_cause hr ht
  have hi := inv_reach hr0
  exact ⟨hi.closed h1 (hi.served h2) h4, by rw [hi.progress, h3]; rfl⟩

/-- C90: connections are accepted only while the server is running, that is, has been started and not been stopped. -/
theorem C90_running_partial {h : Bool} {s : State} (hr : Reach h s) {post pre : List Ev} (ht : s.trace = post ++ .connect :: pre) :
    Running pre := by
  obtain ⟨s0, hr0, rfl, h1⟩ := event_cause hr ht
  exact (inv_reach hr0).accepting h1

/-- C90: `Stop` succeeds only while the server is running. -/
theorem C90_stop_partial {h : Bool} {s : State} (hr : Reach h s) {post pre : List Ev} (ht : s.trace = post ++ .stop none :: pre) :
    Running pre := by
  obtain ⟨s0, hr0, rfl, h1⟩ := event_cause hr ht
  exact (inv_reach hr0).accepting h1

/-- C90: at no time are more than 50000 requests processed, and only requests that have begun are finished. -/
theorem C90_bounded_partial {h : Bool} {s : State} (hr : Reach h s) : 0 ≤ inProgress s.trace ∧ inProgress s.trace ≤ 50000 := by
  have hi := inv_reach hr
  have : s.clients ≤ 50000 := hi.bound
  rw [hi.progress]
  omega

/-- C90: the first start of a server succeeds if the port is free. -/
theorem C90_start_partial {s : State} (hr : Reach true s) (hn : .start none ∉ s.trace) :
    (start s none).trace = .start none :: s.trace := by
  have hi := inv_reach hr
  have hl : s.listener = false := by
    cases hx : s.listener with
    | false => rfl
    | true => exact absurd (hi.started.1 hx) hn
  have hh : s.handler = true := by
    clear hi hl hn
    induction hr with
    | init => rfl
    | step _ hs ih =>
      rename_i s s' l _
      have : s'.handler = s.handler := by
        cases l <;> simp only [step] at hs
        case start r =>
          cases hs; unfold start
          split
          · rfl
          split
          · rfl
          · cases r <;> rfl
        case stop =>
          cases hs; unfold stop
          split
          · rfl
          split <;> rfl
        case served r =>
          split at hs
          · cases hs; cases r <;> rfl
          · cases hs
        case enter =>
          split at hs
          · cases hs
          split at hs
          · cases hs; rfl
          · cases hs
        all_goals
          split at hs
          all_goals first
            | (cases hs; done)
            | (cases hs; rfl)
      rw [this, ih]
  unfold start
  rw [if_neg (by rw [hh]; decide), if_neg (by rw [hl]; decide)]
  rfl

/-- C90 is false: a server that has been started once can never be started again, even if it was stopped and no connection
is open: `Start` reports that it is started already. -/
theorem C90_negation_restart {h : Bool} {s : State} (hr : Reach h s) (hs : .start none ∈ s.trace) (r : Option String) :
    ∃ m, (start s r).trace = .start (some m) :: s.trace := by
  have hl := (inv_reach hr).started.2 hs
  unfold start
  split <;> exact ⟨_, rfl⟩

/-- C90 is false: `IsStarted` stays true for ever after the first start. -/
theorem C90_negation_isStarted {h : Bool} {s : State} (hr : Reach h s) (hs : .start none ∈ s.trace) : s.isStarted = true := by
  unfold State.isStarted
  rw [(inv_reach hr).started.2 hs]
  rfl

/-- Several steps. -/
def steps (s : State) : List Label → Option State
  | [] => some s
  | l :: ls => (step s l).bind (fun s' => steps s' ls)

theorem reach_steps {h : Bool} {s s' : State} {ls : List Label} (hr : Reach h s) (hs : steps s ls = some s') : Reach h s' := by
  induction ls generalizing s with
  | nil => cases hs; exact hr
  | cons l ls ih =>
    simp only [steps, Option.bind_eq_some_iff] at hs
    obtain ⟨s1, h1, h2⟩ := hs
    exact ih (.step hr h1) h2

theorem leave_all (s : State) : ∃ s', steps s (List.replicate s.clients .leave) = some s' ∧ s'.clients = 0 ∧ s'.listener = s.listener ∧
    s'.serving = s.serving ∧ s'.lastError = s.lastError := by
  generalize hn : s.clients = n
  induction n generalizing s with
  | zero => exact ⟨s, rfl, hn, rfl, rfl, rfl⟩
  | succ n ih =>
    obtain ⟨s', h1, h2, h3, h4, h5⟩ := ih ({ s with clients := s.clients - 1 }.emit .finish) (by show s.clients - 1 = n; omega)
    refine ⟨s', ?_, h2, h3, h4, h5⟩
    show (step s .leave).bind (fun s' => steps s' (List.replicate n .leave)) = some s'
    unfold step
    dsimp only
    rw [if_neg (by omega)]
    exact h1

/-- C90, waiting ends: once serving has ended, because the server was stopped or because accepting connections failed, `WaitStop`
returns as soon as the requests in progress are finished, and reports the error if accepting failed. -/
theorem C90_ends_partial {h : Bool} {s s1 : State} (hr : Reach h s) {r : Option String} (h1 : step s (.served r) = some s1) :
    ∃ s2 s3 x, steps s1 (List.replicate s1.clients .leave) = some s2 ∧ inProgress s2.trace = 0 ∧ step s2 .idle = some s3 ∧
      s3.trace = .waited x :: s2.trace ∧ ∀ m, r = some m → x = some m := by
  have hi := inv_reach hr
  unfold step at h1
  dsimp only at h1
  split at h1
  · rename_i hc
    have hserv : s.serving = true := by
      cases hx : s.serving with
      | true => rfl
      | false => rw [hx] at hc; cases hc
    have hl : s.listener = true := by
      cases hx : s.listener with
      | true => rfl
      | false => rw [(hi.idle hx).1] at hserv; cases hserv
    have hs1 : s1.listener = true ∧ s1.serving = false ∧ ∀ m, r = some m → s1.lastError = some m := by
      cases h1
      unfold served
      cases r with
      | none => exact ⟨hl, rfl, fun _ h => nomatch h⟩
      | some m => exact ⟨hl, rfl, fun _ h => h⟩
    have hr1 : Reach h s1 := .step (l := .served r) hr (by unfold step; dsimp only; rw [if_pos hc]; exact h1)
    obtain ⟨s2, g1, g2, g3, g4, g5⟩ := leave_all s1
    have hr2 := reach_steps hr1 g1
    refine ⟨s2, s2.emit (.waited s2.lastError), s2.lastError, g1, ?_, ?_, rfl, fun m hm => ?_⟩
    · rw [(inv_reach hr2).progress, g2]; rfl
    · unfold step
      dsimp only
      rw [if_pos]
      rw [g3, g4, g2, hs1.1, hs1.2.1]; rfl
    · rw [g5]; exact hs1.2.2 m hm
  · cases h1

-- accepting fails while two requests are processed
example : ∃ s s1, Reach true s ∧ step s (.served (some "too many open files")) = some s1 ∧ s1.clients = 2 :=
  ⟨_, _, reach_steps (ls := [.start none, .accept, .arrive, .arrive, .enter, .enter]) .init rfl, rfl, rfl⟩

/-- C90 is false: a client that keeps its connection open has a request processed after `WaitStop` reported success. -/
theorem C90_negation_later : ∃ s, Reach true s ∧ s.trace = [.begin, .waited none, .stop none, .finish, .begin, .connect, .start none] :=
  ⟨_, reach_steps (ls := [.start none, .accept, .arrive, .enter, .leave, .stop, .served none, .idle, .arrive, .enter]) .init rfl, rfl⟩

-- non-trivial instances: the server is stopped while a request is processed; the first `WaitStop` reports a timeout, the second
-- one success, and then the server cannot be started
example : ∃ s, Reach true s ∧ s.trace = [.start (some "server already started"), .waited none, .finish,
    .waited (some "WaitStop error, timeout waiting for 1 client(s) to finish"), .stop (some "use of closed network connection"),
    .stop none, .begin, .connect, .start none, .start (some "address already in use"), .stop (some "server not started")] :=
  ⟨_, reach_steps (ls := [.stop, .start (some "address already in use"), .start none, .accept, .arrive, .enter, .stop, .stop,
    .served none, .timeout, .leave, .idle, .start none]) .init rfl, by decide⟩

/-! ### C90: requests and queries -/

/-- The requests that arrive in the course of some steps. -/
def arrivals : List Label → Nat
  | [] => 0
  | .arrive :: ls => arrivals ls + 1
  | _ :: ls => arrivals ls

/-- The requests whose processing has begun. -/
def begins : List Ev → Nat
  | [] => 0
  | .begin :: tr => begins tr + 1
  | _ :: tr => begins tr

theorem step_begins {s s' : State} {l : Label} (hs : step s l = some s') :
    begins s'.trace + s'.queued = begins s.trace + s.queued + arrivals [l] := by
  cases l <;> simp only [step] at hs
  case start r =>
    cases hs; unfold start
    split
    · rfl
    split
    · rfl
    · cases r <;> rfl
  case stop =>
    cases hs; unfold stop
    split
    · rfl
    split <;> rfl
  case served r =>
    split at hs
    · cases hs; cases r <;> rfl
    · cases hs
  case enter =>
    split at hs
    · cases hs
    split at hs
    · cases hs
      simp only [State.emit, begins, arrivals]
      omega
    · cases hs
  all_goals
    split at hs
    all_goals first
      | (cases hs; done)
      | (cases hs; rfl)

theorem arrivals_cons (l : Label) (ls : List Label) : arrivals (l :: ls) = arrivals [l] + arrivals ls := by
  cases l <;> simp [arrivals] <;> omega

theorem steps_begins {s s' : State} {ls : List Label} (hs : steps s ls = some s') :
    begins s'.trace + s'.queued = begins s.trace + s.queued + arrivals ls := by
  induction ls generalizing s with
  | nil => cases hs; rfl
  | cons l ls ih =>
    simp only [steps, Option.bind_eq_some_iff] at hs
    obtain ⟨s1, h1, h2⟩ := hs
    rw [ih h2, step_begins h1, arrivals_cons l ls]
    omega

/-- C90: every request that arrives is processed at most once, and those that are not being processed yet wait: the number of
requests that arrived is the number of those whose processing has begun and those that wait for a place. -/
theorem C90_once_partial {h : Bool} {s : State} {ls : List Label} (hs : steps { handler := h } ls = some s) :
    begins s.trace + s.queued = arrivals ls ∧ begins s.trace ≤ arrivals ls := by
  have := steps_begins hs
  simp only [begins] at this
  omega

/-- C90: a request that waits is processed as soon as fewer than 50000 requests are in progress. -/
theorem C90_admitted_partial {h : Bool} {s : State} (hr : Reach h s) (hq : 0 < s.queued) (hn : inProgress s.trace < 50000) :
    ∃ s', step s .enter = some s' ∧ s'.trace = .begin :: s.trace ∧ s'.queued + 1 = s.queued := by
  have hp := (inv_reach hr).progress
  have hc : s.clients < capacity := by show s.clients < 50000; omega
  refine ⟨{ s with queued := s.queued - 1, clients := s.clients + 1 }.emit .begin, ?_, rfl, ?_⟩
  · unfold step
    dsimp only
    rw [if_neg (by omega), if_pos hc]
  · show s.queued - 1 + 1 = s.queued
    omega

/-- C90: `IsStarted` tells whether the server has ever been started; before that it is false. -/
theorem C90_isStarted_partial {h : Bool} {s : State} (hr : Reach h s) : s.isStarted = true ↔ .start none ∈ s.trace := by
  have hi := inv_reach hr
  refine ⟨fun hx => ?_, C90_negation_isStarted hr⟩
  cases hl : s.listener with
  | true => exact hi.started.1 hl
  | false =>
    unfold State.isStarted at hx
    rw [hl, (hi.idle hl).2.2.1] at hx
    exact absurd hx (by decide)

/-- C90: `WaitStop` and `Stop` of a server report that it is not started exactly if no start has succeeded. -/
theorem C90_notStarted_partial {h : Bool} {s : State} (hr : Reach h s) :
    ((∃ s', step s .notStarted = some s') ↔ .start none ∉ s.trace) ∧
      ((stop s).trace = .stop (some "server not started") :: s.trace ↔ .start none ∉ s.trace) := by
  have hi := inv_reach hr
  rw [← hi.started]
  cases hl : s.listener with
  | true =>
    refine ⟨Iff.intro ?_ (fun hx => absurd rfl hx), Iff.intro ?_ (fun hx => absurd rfl hx)⟩
    · rintro ⟨s', hs⟩
      unfold step at hs
      dsimp only at hs
      rw [if_pos hl] at hs
      cases hs
    · intro hx
      unfold stop at hx
      rw [if_neg (by rw [hl]; decide)] at hx
      split at hx
      · have hx := (List.cons.inj hx).1
        injection hx with hx
        injection hx with hx
        exact absurd hx (by decide)
      · rename_i ha
        have ha : s.accepting = true := by simpa using ha
        have hle : s.lastError = some "server not started" := by
          have hx := (List.cons.inj hx).1
          injection hx
        have := hi.lastErr ha
        rw [hle] at this
        cases this
  | false =>
    refine ⟨Iff.intro (fun _ hx => nomatch hx) (fun _ => ?_), Iff.intro (fun _ hx => nomatch hx) (fun _ => ?_)⟩
    · refine ⟨s.emit (.waited (some "server not started")), ?_⟩
      unfold step
      dsimp only
      rw [if_neg (by rw [hl]; decide)]
    · unfold stop
      rw [if_pos hl]
      rfl

/-- C90: `WaitStop` gives up waiting only for a server that has been started and accepts no further connections. -/
theorem C90_timeout_partial {h : Bool} {s s' : State} (hr : Reach h s) (hs : step s .timeout = some s') :
    .start none ∈ s.trace ∧ step s .accept = none ∧ step s' .accept = none := by
  have hi := inv_reach hr
  unfold step at hs
  dsimp only at hs
  split at hs
  · rename_i hc
    have hc : s.listener = true ∧ s.serving = false := by simpa using hc
    cases hs
    refine ⟨hi.started.1 hc.1, ?_, ?_⟩
    · unfold step
      dsimp only
      rw [if_neg (by rw [hc.2]; exact Bool.false_ne_true)]
    · exact if_neg (by show ¬ (s.serving && s.accepting) = true; rw [hc.2]; exact Bool.false_ne_true)
  · cases hs

-- non-trivial instances: two requests arrived, one is being processed, and the wait is given up
example : ∃ s s', steps { handler := true } [.start none, .accept, .arrive, .arrive, .enter, .stop, .served none] = some s ∧
    begins s.trace = 1 ∧ s.queued = 1 ∧ inProgress s.trace = 1 ∧ step s .timeout = some s' :=
  ⟨_, _, rfl, rfl, rfl, rfl, rfl⟩

end Flow.Srv
