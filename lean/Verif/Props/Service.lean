import Verif.Model.Service
import Verif.Props.Launch

/-
C99: the answers of the tester.
-/

namespace Flow
open Launch Spec

variable {env : Env} {w : World}

/-- The flow can be executed: it is known under this name, and so is its model. -/
def Ready (w : World) (uri : String) : Prop := uri ≠ "" ∧ ∃ d, Known w uri d ∧ w.modelOk d = true

/-- The flow can continue the saved instance: it is known, so is its model, and it has a task for every saved one. -/
def Continues (w : World) (r : Restored) : Prop :=
  r.top.uri ≠ "" ∧ ∃ d, Known w r.top.uri d ∧ w.modelOk d = true ∧
    ∀ p, p ∈ r.top.tasks → d.task? ⟨false, p.1⟩ ≠ none ∨ d.task? ⟨true, p.1⟩ ≠ none

theorem known_unique {uri : String} {d d' : Def} (h : Known w uri d) (h' : Known w uri d') : d = d' := by
  rcases h with h | h <;> rcases h' with h' | h'
  · exact Option.some.inj (h.2.symm.trans h'.2)
  · exact absurd h.1 h'.1
  · exact absurd h'.1 h.1
  · have := h.2.symm.trans h'.2; cases this; rfl

theorem newAction_known {uri : String} (h : ∃ d, Known w uri d) : ∃ a, w.newAction uri = .ok a := by
  obtain ⟨d, hd⟩ := h
  obtain ⟨b, hb⟩ := find_iff.2 hd
  unfold World.newAction
  rw [hb]
  exact ⟨_, rfl⟩

theorem newAction_unknown {uri : String} (h : ¬ ∃ d, Known w uri d) : ∃ e, w.newAction uri = .error e := by
  unfold World.newAction
  cases hf : w.find uri with
  | error e => exact ⟨_, rfl⟩
  | ok p =>
    obtain ⟨od, b⟩ := p
    cases od with
    | none => exact ⟨_, rfl⟩
    | some d => exact absurd ⟨d, find_iff.1 ⟨b, hf⟩⟩ h

/-- A new instance is an error or is started. -/
theorem start_outcome (a : Action) (o : Options) (inputs : AMap String Val) :
    (∃ e, w.start env a o inputs = .error e) ∨ ∃ l, w.start env a o inputs = .started l := by
  unfold World.start
  split
  · exact .inl ⟨_, rfl⟩
  · exact .inl ⟨_, rfl⟩
  · split
    · exact .inr ⟨_, rfl⟩
    · exact .inl ⟨_, rfl⟩

theorem testStart_outcome (uri : String) (attrs data : AMap String Val) :
    (∃ e, w.testStart env uri attrs data = .error e) ∨ ∃ l, w.testStart env uri attrs data = .started l := by
  unfold World.testStart
  split
  · exact .inl ⟨_, rfl⟩
  · rename_i a _
    by_cases hu : uriOf a (optionsOf (request (if 0 < attrs.length then attrs else data) { returnId := true, uri := uri })) = ""
    · refine .inl ⟨.plain "cannot run flow, flowURI not specified", ?_⟩
      unfold World.run; dsimp only; rw [if_pos hu]
    · rw [run_op w a _ hu, if_pos (by rw [request_options])]
      exact start_outcome a _ _

/-- What is started can be executed. -/
theorem started_ready {uri : String} {attrs data : AMap String Val} (ha : (AMap.keys attrs).Nodup) (hd : (AMap.keys data).Nodup)
    {l : Launched Eng} (h : w.testStart env uri attrs data = .started l) : Ready w uri := by
  unfold World.testStart at h
  split at h
  · cases h
  · rename_i a hnew
    have hxn : (AMap.keys (if 0 < attrs.length then attrs else data)).Nodup := by split <;> assumption
    have hu := run_uri (env := env) (fun e he => by rw [h] at he; cases he)
    rw [request_options] at hu
    have hfor := newAction_find (w := w) (uri := uri) (a := a) hnew
    obtain ⟨asked, d, b, J, h1, h2, hm, _⟩ := start_found (env := env) (uri := uri) hnew (request_nodup hxn _)
      (by rw [request_options]) h (by rw [request_options]; exact .inr (.inl rfl))
    rw [request_options] at h1
    have hask : asked = uri := by
      rcases h1 with h1 | h1
      · exact h1.2
      · rw [h1.2]; exact hfor.1
    subst hask
    refine ⟨fun hc => hu ?_, d, find_iff.1 ⟨b, h2⟩, hm⟩
    unfold uriOf
    subst hc
    exact hfor.1

/-- C99, requests that cannot be read are refused with the reason. -/
theorem C99_unreadable (e : Err) : w.serveStart env (.error e) = .refused e ∧ w.serveRestart env (.error e) = .refused e ∧
    w.serveResume env (.error e) = .refused e := ⟨rfl, rfl, rfl⟩

/-- C99, start requests: if the flow can be executed the answer is the identifier of the new instance, otherwise the request is
refused; there is always one of these answers. -/
theorem C99_start (q : StartRequest) (ha : (AMap.keys q.attrs).Nodup) (hd : (AMap.keys q.data).Nodup) :
    (Ready w q.uri → w.serveStart env (.ok q) = .identifier w.nextId ∧
      ∃ l, w.testStart env q.uri q.attrs q.data = .started l ∧ l.inst.id = w.nextId) ∧
    (¬ Ready w q.uri → ∃ e, w.serveStart env (.ok q) = .refused e) := by
  have hid : ∀ l, w.testStart env q.uri q.attrs q.data = .started l → w.serveStart env (.ok q) = .identifier w.nextId ∧ l.inst.id = w.nextId := by
    intro l hl
    obtain ⟨d, J, h1, h2, h3, _⟩ := C86_start_partial (env := env) ha hd hl
    refine ⟨?_, h2⟩
    show answerFor (w.testStart env q.uri q.attrs q.data).results = _
    rw [hl]
    show answerFor (some (.ok (if l.returnId then [("id", .str l.inst.id)] else []))) = _
    rw [if_pos h3, h2]
    rfl
  constructor
  · rintro ⟨hne, d, hk, hm⟩
    obtain ⟨a, hnew⟩ := newAction_known ⟨d, hk⟩
    have hst : ∃ l, w.testStart env q.uri q.attrs q.data = .started l := by
      unfold World.testStart
      rw [hnew]
      exact C85_starts hnew (by rw [request_options]) (by rw [request_options]; exact .inr (.inl rfl))
        (asked := q.uri) (by rw [request_options]; exact .inl ⟨hne, rfl⟩) hne hk hm
    obtain ⟨l, hl⟩ := hst
    exact ⟨(hid l hl).1, l, hl, (hid l hl).2⟩
  · intro hr
    rcases testStart_outcome (env := env) (w := w) q.uri q.attrs q.data with ⟨e, he⟩ | ⟨l, hl⟩
    · refine ⟨e, ?_⟩
      show answerFor (w.testStart env q.uri q.attrs q.data).results = _
      rw [he]; rfl
    · exact absurd (started_ready ha hd hl) hr

/-- What the restart of a saved instance comes down to. -/
theorem testRestart_eq {r : Restored} (data : AMap String Val) {d : Def} (hne : r.top.uri ≠ "") (hk : Known w r.top.uri d) :
    ∃ a, w.testRestart env r data = w.run env a (request data { op := 2, returnId := true, uri := r.top.uri, state := some (.restored r) }) ∧
      uriOf a { op := 2, returnId := true, uri := r.top.uri, state := some (.restored r) } ≠ "" := by
  obtain ⟨a, hnew⟩ := newAction_known ⟨d, hk⟩
  refine ⟨a, ?_, ?_⟩
  · unfold World.testRestart; rw [hnew]
  · unfold uriOf; rw [if_neg hne]; exact hne

/-- A restart by the tester succeeds if all saved tasks are found, and panics otherwise. -/
theorem testRestart_found {r : Restored} (data : AMap String Val) {d : Def} (hne : r.top.uri ≠ "") (hk : Known w r.top.uri d)
    (hm : w.modelOk d = true) :
    (resolvable d r.top.tasks = true → ∃ l, w.testRestart env r data = .restarted l ∧ l.inst.id = w.nextId ∧ l.returnId = true) ∧
    (resolvable d r.top.tasks = false → w.testRestart env r data = .panic) := by
  obtain ⟨a, h1, h2⟩ := testRestart_eq (env := env) data hne hk
  rw [h1, run_op w a _ (by rw [request_options]; exact h2), request_options, if_neg (show (2 : Int) ≠ 0 by decide),
    if_neg (show (2 : Int) ≠ 1 by decide), if_pos rfl]
  obtain ⟨b, hb⟩ := find_iff.2 hk
  have hmod : ((w.find r.top.uri).toOption.bind (·.1)).elim false w.modelOk = true := by rw [hb]; exact hm
  have hdef : (w.find r.top.uri).map (·.1) = .ok (some d) := by rw [hb]; rfl
  unfold World.restart
  dsimp only
  rw [hmod]
  unfold Restored.restart
  dsimp only
  rw [hdef]
  dsimp only
  rw [if_pos rfl]
  constructor
  · intro hr
    rw [if_pos hr]
    exact ⟨_, rfl, rfl, rfl⟩
  · intro hr
    rw [if_neg (by rw [hr]; decide)]

/-- C99, restart requests: if the flow can continue the saved instance the answer is the identifier under which it continues;
otherwise the request is refused if the flow or its model is not known.

Partial: without saved instance, or if the flow has no task for a saved one, there is no answer (`C99_negation_restart`). -/
theorem C99_restart_partial (q : StateRequest) {r : Restored} (hq : q.state = some r) :
    (Continues w r → w.serveRestart env (.ok q) = .identifier w.nextId ∧
      ∃ l, w.testRestart env r q.data = .restarted l ∧ l.inst.id = w.nextId) ∧
    (¬ Ready w r.top.uri → ∃ e, w.serveRestart env (.ok q) = .refused e) := by
  have hserve : w.serveRestart env (.ok q) = answerFor (w.testRestart env r q.data).results := by
    unfold World.serveRestart; dsimp only; rw [hq]
  rw [hserve]
  constructor
  · rintro ⟨hne, d, hk, hm, ht⟩
    have hres : resolvable d r.top.tasks = true := by
      unfold resolvable
      rw [List.all_eq_true]
      intro p hp
      rcases ht p hp with h | h
      · rw [Option.isSome_iff_ne_none.2 h]; rfl
      · rw [Option.isSome_iff_ne_none.2 h]; exact Bool.or_true _
    obtain ⟨l, h1, h2, h3⟩ := (testRestart_found (env := env) q.data hne hk hm).1 hres
    refine ⟨?_, l, h1, h2⟩
    rw [h1]
    show answerFor (some (.ok (if l.returnId then [("id", .str l.inst.id)] else []))) = _
    rw [if_pos h3, h2]
    rfl
  · intro hr
    have herr : ∃ e, w.testRestart env r q.data = .error e := by
      unfold World.testRestart
      cases hnew : w.newAction r.top.uri with
      | error e => exact ⟨e, rfl⟩
      | ok a =>
        dsimp only
        by_cases hne : r.top.uri = ""
        · refine ⟨.plain "cannot run flow, flowURI not specified", ?_⟩
          have hu : uriOf a (optionsOf (request q.data { op := 2, returnId := true, uri := r.top.uri, state := some (.restored r) })) = "" := by
            rw [request_options]
            unfold uriOf
            rw [if_pos hne]
            exact (newAction_find (w := w) hnew).1.trans hne
          unfold World.run; dsimp only; rw [if_pos hu]
        · refine C85_restart_unknown (by rw [request_options]) (r := r) (by rw [request_options]) (fun d hd => ?_)
          cases hm : w.modelOk d with
          | false => rfl
          | true => exact absurd ⟨hne, d, hd, hm⟩ hr
    obtain ⟨e, he⟩ := herr
    rw [he]
    exact ⟨e, rfl⟩

/-- C99 fails for restart requests: a request without saved instance, or with a task the flow does not have, is not answered at all,
since the handler panics. -/
theorem C99_negation_restart (q : StateRequest) :
    (q.state = none → w.serveRestart env (.ok q) = .aborted) ∧
    (∀ r, q.state = some r → Ready w r.top.uri → ¬ Continues w r → w.serveRestart env (.ok q) = .aborted) := by
  constructor
  · intro h; unfold World.serveRestart; dsimp only; rw [h]
  · rintro r h ⟨hne, d, hk, hm⟩ hc
    unfold World.serveRestart; dsimp only; rw [h]; dsimp only
    rw [(testRestart_found (env := env) q.data hne hk hm).2]
    · rfl
    · rw [← Bool.not_eq_true]
      intro hres
      refine hc ⟨hne, d, hk, hm, fun p hp => ?_⟩
      unfold resolvable at hres
      rw [List.all_eq_true] at hres
      have := hres p hp
      rw [Bool.or_eq_true, Option.isSome_iff_ne_none, Option.isSome_iff_ne_none] at this
      exact this

/-- C99 fails for resume requests: no request is answered with an identifier. With a saved instance of a flow that can be executed,
and also without saved instance, the answer says success although nothing is executed. -/
theorem C99_negation_resume (q : StateRequest) :
    (∀ id, w.serveResume env (.ok q) ≠ .identifier id) ∧ (q.state = none → w.serveResume env (.ok q) = .empty) ∧
    (∀ r, q.state = some r → Ready w r.top.uri → w.serveResume env (.ok q) = .empty ∧ w.testResume env r q.data = .panic) := by
  unfold World.serveResume
  dsimp only
  cases hq : q.state with
  | none => exact ⟨fun id h => (by cases h), fun _ => rfl, fun r h => (by cases h)⟩
  | some r =>
    dsimp only
    refine ⟨fun id h => ?_, (fun h => (by cases h)), ?_⟩
    · rcases C86_negation_resume (env := env) w r q.data with ⟨e, he⟩ | hp
      · rw [he] at h; cases h
      · rw [hp] at h; cases h
    · rintro r' hr ⟨hne, d, hk, hm⟩
      cases hr
      have hp : w.testResume env r q.data = .panic := by
        obtain ⟨a, hnew⟩ := newAction_known ⟨d, hk⟩
        unfold World.testResume
        rw [hnew]
        refine C85_negation_resume (by rw [request_options]) (r := r) (by rw [request_options]) ?_
        rw [request_options]
        unfold uriOf
        rw [if_neg hne]
        exact hne
      rw [hp]
      exact ⟨rfl, rfl⟩

-- non-trivial instances: a start is answered with the identifier, an unknown flow is refused
example : Ready fourFlows "res://flow:a" := ⟨by decide, _, find_iff.1 ⟨true, rfl⟩, rfl⟩
example : ¬ Ready fourFlows "res://flow:c" := by
  rintro ⟨_, d, hk, _⟩
  obtain ⟨b, hb⟩ := find_iff.2 hk
  cases hb
-- and a saved instance of three tasks can be continued by its flow, but not by one that lacks a task
example : ∃ r, savedThree = some r ∧
    Continues { fourFlows with flows := fun _ => .ok (some { name := "f", main := ⟨[tk "A", tk "B", tk "C"], []⟩ }) } r ∧
    Ready { fourFlows with flows := fun _ => .ok (some (justTask "A")) } r.top.uri ∧
    ¬ Continues { fourFlows with flows := fun _ => .ok (some (justTask "A")) } r := by
  refine ⟨_, rfl, ⟨by decide, _, find_iff.1 ⟨false, rfl⟩, rfl, by decide⟩, ⟨by decide, _, find_iff.1 ⟨false, rfl⟩, rfl⟩, ?_⟩
  rintro ⟨_, d, hk, _, h⟩
  obtain ⟨b, hb⟩ := find_iff.2 hk
  cases hb
  revert h
  decide

end Flow
