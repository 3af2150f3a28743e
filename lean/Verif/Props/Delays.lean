import Verif.Proofs.Delays
import Verif.Props.Retry
import Verif.Props.Loops

/-
C93: when a flow pauses.
-/

namespace Flow
open Spec

variable {env : Env} {T : Timing} {s : Timed}

/-- C93, observation: recording the pauses does not change the run. -/
theorem C93_same (env : Env) (T : Timing) (id uri : String) (d : Def) (ins : AMap String Val) (n : Nat) :
    (Timed.run env T (Timed.init env id uri d ins) n).eng = Eng.run env (Eng.init env id uri d ins) n := by
  induction n with
  | zero => rfl
  | succ n ih =>
    show (Timed.step env T _).eng = Eng.step env _
    rw [Timed.step_eng, ih]

/-- C93, evaluation: when a task is evaluated, the interval of its retries lies between any two attempts to evaluate its activity,
and nothing is waited for before the first attempt or after the last one, except for the delay of a loop. The interval is the one
that an earlier evaluation of the task instance has determined, else it is determined after the first attempt.

A do-while loop pauses only if another round follows; an iterator pauses after every round that did not fail. A round of an iterator
that has no further value pauses for nothing. -/
theorem C93_evaluation_partial {i o : Nat} {t : TaskRef} {e' : Eng} {r : Eng.EvalOut} (hev : Evaluates env s.eng i o t e' r)
    (hst : (s.eng.obj? i o).map (·.status) ≠ some .waiting) {td : TaskDef} (htd : s.eng.taskDef? i t = some td)
    {I : Inst} (hI : s.eng.insts[i]? = some I) :
    (td.kind = .iterator ∧ (s.step env T).log = s.log ∧ ∀ j, calls e' j = calls s.eng j) ∨
    ∃ a as n ms, Retried env i o a as n ∧ (∀ j, calls a.before j = calls s.eng j) ∧ (∀ j, calls e' j = calls (lastAttempt a as).after j) ∧
      (s.step env T).log = s.log ++ separated (gapOf i o .retry ms) i o (as.length + 1) ++ roundGap i o td.kind r (T.delay I.defn t) ∧
      (∀ v, s.itv i o = some v → ms = v) ∧ (s.itv i o = none → ms = T.interval a.after i o) := by
  obtain ⟨⟨w, hn, rfl, rfl, hout⟩, ht⟩ := hev
  cases hob : s.eng.obj? w.inst w.obj with
  | none => rw [hob] at ht; cases ht
  | some ob =>
    rw [hob] at ht hst
    cases ht
    have hob' : (afterPop env s.eng w).obj? w.inst w.obj = some ob := hob
    have htd' : (afterPop env s.eng w).taskDef? w.inst ob.task = some td := htd
    have hd : (afterPop env s.eng w).delayOf T w.inst ob.task = T.delay I.defn ob.task := by
      unfold Eng.delayOf
      show (match s.eng.insts[w.inst]? with | none => _ | some I => _) = _
      rw [hI]
    obtain ⟨hlog, _⟩ := Timed.step_next (T := T) hn
    rcases Timed.exec_eval (T := T) (itv := s.itv w.inst w.obj) hob' htd' hout with ⟨hw, _, _⟩ | ⟨_, hx, heq⟩
    · exact absurd (congrArg some hw) hst
    · have he : e' = ((afterPop env s.eng w).evalKind env w.inst w.obj td).1 := by rw [← hx]
      have hr : r = ((afterPop env s.eng w).evalKind env w.inst w.obj td).2 := by rw [← hx]
      rw [hlog, heq]
      dsimp only
      rcases Eng.timeEval_tried (env := env) (T := T) (i := w.inst) (o := w.obj) (s.itv w.inst w.obj) (afterPop env s.eng w) ob.task td with
        ⟨hk, hops, _, hcalls⟩ | ⟨f, evs, a, as, ms, hf, h, hevs⟩
      · refine Or.inl ⟨hk, by rw [hops, List.append_nil], fun j => ?_⟩
        rw [he]; exact hcalls j
      · obtain ⟨n, hret⟩ := h.tries
        refine Or.inr ⟨a, as, n, ms, hret, fun j => ?_, fun j => ?_, ?_, fun v hv => (h.stored v hv).1, h.fresh⟩
        · rw [h.first]; exact hf j
        · rw [he]; exact h.calls j
        · rw [hevs, h.events, hr, hd, List.append_assoc]

/-- C93, resumed tasks: if the outcome of a waiting activity is to be retried, the interval passes before the first further attempt
and between the attempts. Otherwise no activity is evaluated, and only a do-while loop that has another round pauses. -/
theorem C93_resumed {i o : Nat} {t : TaskRef} {e' : Eng} {r : Eng.EvalOut} (hev : Evaluates env s.eng i o t e' r)
    (hst : (s.eng.obj? i o).map (·.status) = some .waiting) {td : TaskDef} (htd : s.eng.taskDef? i t = some td)
    {I : Inst} (hI : s.eng.insts[i]? = some I) :
    (s.step env T).log = s.log ++ (if td.kind = .doWhile ∧ goesAgain r then gapOf i o .loop (T.delay I.defn t) else []) ∨
    ∃ w err a as n ms, Spec.next env s.eng = some w ∧ (Eng.postOnce env (afterPop env s.eng w) i o).2 = .error err ∧ td.kind = .basic ∧
      Retried env i o a as n ∧ (∀ j, calls a.before j = calls (Eng.postOnce env (afterPop env s.eng w) i o).1 j) ∧
      (∀ j, calls e' j = calls (lastAttempt a as).after j) ∧
      (s.step env T).log = s.log ++ gapOf i o .retry ms ++ separated (gapOf i o .retry ms) i o (as.length + 1) ∧
      (∀ v, s.itv i o = some v → ms = v) ∧
      (s.itv i o = none → ms = T.interval (Eng.postOnce env (afterPop env s.eng w) i o).1 i o) := by
  obtain ⟨⟨w, hn, rfl, rfl, hout⟩, ht⟩ := hev
  cases hob : s.eng.obj? w.inst w.obj with
  | none => rw [hob] at ht; cases ht
  | some ob =>
    rw [hob] at ht hst
    cases ht
    have hwait : ob.status = .waiting := Option.some.inj hst
    have hob' : (afterPop env s.eng w).obj? w.inst w.obj = some ob := hob
    have htd' : (afterPop env s.eng w).taskDef? w.inst ob.task = some td := htd
    have hd : (afterPop env s.eng w).delayOf T w.inst ob.task = T.delay I.defn ob.task := by
      unfold Eng.delayOf
      show (match s.eng.insts[w.inst]? with | none => _ | some I => _) = _
      rw [hI]
    obtain ⟨hlog, _⟩ := Timed.step_next (T := T) hn
    rcases Timed.exec_eval (T := T) (itv := s.itv w.inst w.obj) hob' htd' hout with ⟨_, hx, heq⟩ | ⟨hw, _, _⟩
    · have he : e' = ((afterPop env s.eng w).postKind env w.inst w.obj td).1 := by rw [← hx]
      have hr : r = ((afterPop env s.eng w).postKind env w.inst w.obj td).2 := by rw [← hx]
      rw [hlog, heq]
      dsimp only
      rcases Eng.timePost_tried (env := env) (T := T) (i := w.inst) (o := w.obj) (s.itv w.inst w.obj) (afterPop env s.eng w) ob.task td with
        ⟨_, hops⟩ | ⟨err, f, evs, a, as, ms, hk, herr, hf, hops, ⟨n, hret⟩, hfirst, hcalls, hevs, hv, hfresh, _⟩
      · left
        rw [hops, hr, hd]
      · refine Or.inr ⟨w, err, a, as, n, ms, hn, herr, hk, hret, fun j => ?_, fun j => ?_, ?_, hv, hfresh⟩
        · rw [hfirst]; exact hf j
        · rw [he]; exact hcalls j
        · rw [hops, hevs, List.append_assoc]
    · exact absurd hwait hw

/-- C93, nothing else pauses: a step that evaluates no task adds neither a pause nor an attempt. -/
theorem C93_idle (h : ∀ i o t e' r, ¬ Evaluates env s.eng i o t e' r) : (s.step env T).log = s.log := by
  cases hn : Spec.next env s.eng with
  | none => exact (Timed.step_idle hn).1
  | some w =>
    rw [(Timed.step_next hn).1]
    cases hout : outcome env (afterPop env s.eng w) w.inst w.obj with
    | none => rw [Timed.exec_idle hout]; exact List.append_nil _
    | some q =>
      cases ho : s.eng.obj? w.inst w.obj with
      | none =>
        have : (afterPop env s.eng w).obj? w.inst w.obj = none := ho
        unfold outcome at hout
        rw [this] at hout; cases hout
      | some ob => exact absurd ⟨⟨w, hn, rfl, rfl, hout⟩, by rw [ho]; rfl⟩ (h w.inst w.obj ob.task q.1 q.2)

/-- C93, lengths: every pause is positive, and all pauses before retries of one task instance are equally long, even if the interval
is an expression whose value changes. -/
theorem C93_interval (env : Env) (T : Timing) (id uri : String) (d : Def) (ins : AMap String Val) (n : Nat) {s : Timed}
    (hs : s = Timed.run env T (Timed.init env id uri d ins) n) :
    (∀ i o why ms, TimeEv.pause i o why ms ∈ s.log → 0 < ms) ∧
    (∀ i o ms ms', TimeEv.pause i o .retry ms ∈ s.log → TimeEv.pause i o .retry ms' ∈ s.log → ms = ms') ∧
    ∀ i o ms, TimeEv.pause i o .retry ms ∈ s.log → s.itv i o = some ms := by
  have inv : (∀ i o why ms, TimeEv.pause i o why ms ∈ s.log → 0 < ms) ∧ ∀ i o ms, TimeEv.pause i o .retry ms ∈ s.log → s.itv i o = some ms := by
    subst hs
    induction n with
    | zero => exact ⟨(fun _ _ _ _ h => nomatch h), (fun _ _ _ h => nomatch h)⟩
    | succ n ih =>
      obtain ⟨⟨new, h1, h2, h3⟩, h4⟩ := Timed.step_fits (env := env) (T := T) (Timed.run env T (Timed.init env id uri d ins) n)
      refine ⟨fun i o why ms h => ?_, fun i o ms h => ?_⟩
      · rcases List.mem_append.1 (h1 ▸ h) with h | h
        · exact ih.1 i o why ms h
        · exact h2 i o why ms h
      · rcases List.mem_append.1 (h1 ▸ h) with h | h
        · exact h4 i o ms (ih.2 i o ms h)
        · exact h3 i o ms h
  refine ⟨inv.1, fun i o ms ms' h h' => ?_, inv.2⟩
  have := (inv.2 i o ms h).symm.trans (inv.2 i o ms' h')
  exact Option.some.inj this

/-- A delay of 100 ms for every loop and an interval of 50 ms, which grows with every call. -/
def growing : Timing := { delay := fun _ _ => 100, interval := fun e i _ => 50 * (calls e i).length }

/-- What the run of a flow has done. -/
def pacedLog (env : Env) (d : Def) (n : Nat) : List TimeEv := (Timed.run env growing (Timed.init env "1" "u" d []) n).log

-- two retries, each after 50 ms
example : pacedLog alwaysRetriable (retryFlow .user) 10 =
    [.attempt 0 0, .pause 0 0 .retry 50, .attempt 0 0, .pause 0 0 .retry 50, .attempt 0 0] := by decide
-- the hypotheses of `C93_evaluation_partial` are met
example : ∃ t e' r td I, Evaluates alwaysRetriable (Timed.init alwaysRetriable "1" "u" (retryFlow .user) []).eng 0 0 t e' r ∧
    (Timed.init alwaysRetriable "1" "u" (retryFlow .user) []).eng.taskDef? 0 t = some td ∧
    (Timed.init alwaysRetriable "1" "u" (retryFlow .user) []).eng.insts[0]? = some I :=
  ⟨⟨false, "A"⟩, _, _, _, _, ⟨⟨⟨1, 0, 0⟩, rfl, rfl, rfl, rfl⟩, rfl⟩, rfl, rfl⟩
-- a do-while loop of three rounds pauses twice
example : pacedLog loopEnv (loopFlow .doWhile .user) 20 =
    [.attempt 0 0, .pause 0 0 .loop 100, .attempt 0 0, .pause 0 0 .loop 100, .attempt 0 0] := by decide
-- one that calls a flow pauses after the called flow has been executed (there is no further round, see `C22_negation`)
example : pacedLog loopEnv (loopFlow .doWhile (.subflow "s")) 30 = [.attempt 0 0, .attempt 1 0, .pause 0 0 .loop 100] := by
  decide +kernel
-- a failed flow that is called again: the interval passes before the further attempts
example : pacedLog subFails (retryFlow (.subflow "s")) 20 = [.attempt 0 0, .attempt 1 0, .pause 0 0 .retry 100, .attempt 0 0, .attempt 2 0,
    .pause 0 0 .retry 100, .attempt 0 0, .attempt 3 0] := by decide +kernel
-- a step that evaluates nothing
example : (pacedLog loopEnv (loopFlow .doWhile .user) 19).length = 5 ∧
    flowStatus (Timed.run loopEnv growing (Timed.init loopEnv "1" "u" (loopFlow .doWhile .user) []) 19).eng 0 = some .completed := by decide

/-- C93 fails for iterators: the delay is documented to lie between iterations, but it also follows the last one. -/
theorem C93_negation_last : pacedLog loopEnv (loopFlow .iterator .user) 20 =
      [.attempt 0 0, .pause 0 0 .loop 100, .attempt 0 0, .pause 0 0 .loop 100, .attempt 0 0, .pause 0 0 .loop 100] ∧
    attemptsIn (pacedLog loopEnv (loopFlow .iterator .user) 20) 0 0 = 3 ∧ loopPauses (pacedLog loopEnv (loopFlow .iterator .user) 20) 0 0 = 3 := by
  decide

/-- C93 fails for iterators that call a flow: the delay passes before the called flow (flow instance 1) executes its first task, not
after it. -/
theorem C93_negation_called : pacedLog loopEnv (loopFlow .iterator (.subflow "s")) 30 =
    [.attempt 0 0, .pause 0 0 .loop 100, .attempt 1 0] := by
  decide +kernel

end Flow
