import Verif.Proofs.Taped
import Verif.Props.OnDemand

/-
C94: what a recorder of states is told about a run.

`Taped.start c e0 e inputs orig` is a run whose instance was in state `e0` before and in state `e` after its start; `Taped.after` gives
the run and the calls of the recorder.
-/

namespace Flow
open Spec

variable {env : Env} {c : RunCfg} {e0 e : Eng} {inputs : AMap String Val} {orig : String} {I0 I : Inst}

/-- C94: the run does not depend on its recorder. -/
theorem C94_same (n : Nat) : (Taped.after env c (Taped.start c e0 e inputs orig) n).run = Run.run env c (Run.start c e) n :=
  Taped.after_run _ n

/-- What has been recorded, in general. -/
theorem taped_log (he : e.insts[0]? = some I) (hk : e.stack = []) (n : Nat) :
    ∃ (L : List Eng) (D : List FlowRec), (Taped.after env c (Taped.start c e0 e inputs orig) n).log =
      ((e0.flowRec inputs orig).map .start ++ L.map .state) ++ D.map .done := by
  rcases Taped.after_cases (env := env) (Taped.start_inv (c := c) (e0 := e0) (inputs := inputs) (orig := orig) he hk) rfl n with
    ⟨h, _⟩ | ⟨m, _, h, _, _, h4⟩
  · obtain ⟨L, h1, _⟩ := h.log
    exact ⟨L, [], by rw [h1]; simp⟩
  · obtain ⟨L, h1, _⟩ := h.log
    rw [h4]
    unfold Taped.report
    dsimp only
    rw [h1]
    split
    · exact ⟨L, [], by simp⟩
    · exact ⟨L, _, rfl⟩

theorem startsIn_done (D : List FlowRec) : startsIn (D.map .done) = [] := by
  induction D with
  | nil => rfl
  | cons x l ih => exact ih

theorem statesIn_done (D : List FlowRec) : statesIn (D.map .done) = [] := by
  induction D with
  | nil => rfl
  | cons x l ih => exact ih

theorem endsIn_done (D : List FlowRec) : endsIn (D.map .done) = D := by
  induction D with
  | nil => rfl
  | cons x l ih => exact congrArg (x :: ·) ih

theorem flowRec_one {e : Eng} {I : Inst} (h : e.insts[0]? = some I) : e.flowRec inputs orig =
    [{ id := e.id, name := I.defn.name, inputs := inputs, outputs := I.fixReturnData.returnData, status := I.status.eventName, originalId := orig }] := by
  unfold Eng.flowRec
  rw [h]

/-- C94: the first call of the recorder is the record of the start, with the identifier and the name of the flow, the inputs and the
identifier of the original instance; there is no other record of a start. -/
theorem C94_start (h0 : e0.insts[0]? = some I0) (he : e.insts[0]? = some I) (hk : e.stack = []) (n : Nat) :
    ∃ f rest, (Taped.after env c (Taped.start c e0 e inputs orig) n).log = .start f :: rest ∧ startsIn rest = [] ∧
      f.id = e0.id ∧ f.name = I0.defn.name ∧ f.inputs = inputs ∧ f.originalId = orig ∧ f.status = I0.status.eventName := by
  obtain ⟨L, D, h⟩ := taped_log (env := env) (c := c) (e0 := e0) (inputs := inputs) (orig := orig) he hk n
  rw [flowRec_one h0] at h
  refine ⟨{ id := e0.id, name := I0.defn.name, inputs := inputs, outputs := I0.fixReturnData.returnData, status := I0.status.eventName, originalId := orig },
    L.map .state ++ D.map .done, by rw [h]; simp, ?_, rfl, rfl, rfl, rfl, rfl⟩
  rw [startsIn_append, startsIn_map, startsIn_done]
  rfl

/-- C94: whenever a step has ended, the last call of the recorder gave the present state, and at least one state was recorded for every
step. (The state before the first step is not recorded for a run that continues at a later step.) -/
theorem C94_current (he : e.insts[0]? = some I) (hk : e.stack = []) (n : Nat)
    (hd : (Taped.after env c (Taped.start c e0 e inputs orig) n).run.done = false)
    (hb : BetweenSteps (Taped.after env c (Taped.start c e0 e inputs orig) n).run.eng) :
    (stepsBegun c (Taped.after env c (Taped.start c e0 e inputs orig) n).run = 0 ∧ 0 < c.initStep ∨
      (statesIn (Taped.after env c (Taped.start c e0 e inputs orig) n).log).getLast? =
        some (Taped.after env c (Taped.start c e0 e inputs orig) n).run.eng) ∧
    stepsBegun c (Taped.after env c (Taped.start c e0 e inputs orig) n).run + 1 ≤
      (statesIn (Taped.after env c (Taped.start c e0 e inputs orig) n).log).length + firstRecorded c := by
  rcases Taped.after_cases (env := env) (Taped.start_inv (c := c) (e0 := e0) (inputs := inputs) (orig := orig) he hk) rfl n with
    ⟨h, _⟩ | ⟨m, _, _, _, _, h4⟩
  · obtain ⟨L, h1, h2, h3⟩ := h.log
    have hs : statesIn (Taped.after env c (Taped.start c e0 e inputs orig) n).log = L := by
      rw [h1, statesIn_append, statesIn_map]
      unfold Eng.flowRec
      split <;> rfl
    rw [hs]
    unfold Spec.stepsBegun
    have hb' : (Taped.after env c (Taped.start c e0 e inputs orig) n).run.eng.stack = [] := hb
    rw [if_pos hb'] at h3
    refine ⟨(h2 hb).imp (fun ⟨x, y⟩ => ⟨by omega, y⟩) (fun x => x), by omega⟩
  · rw [h4] at hd
    have : ((Taped.after env c (Taped.start c e0 e inputs orig) m).report c).run.done = true := Run.report_done _
    rw [this] at hd
    cases hd

/-- C94: as long as no called flow fails, exactly one state is recorded for every step that has ended: the state after it.

Partial: missing are runs in which a called flow fails (`C94_negation_twice`). -/
theorem C94_steps_partial (he : e.insts[0]? = some I) (hk : e.stack = []) (n : Nat)
    (hc : ∀ m ≤ n, ∀ i ≠ 0, flowStatus (Eng.run env e m) i ≠ some .failed)
    (hd : (Taped.after env c (Taped.start c e0 e inputs orig) n).run.done = false) :
    ((statesIn (Taped.after env c (Taped.start c e0 e inputs orig) n).log).length : Int) + firstRecorded c =
      stepsBegun c (Run.run env c (Run.start c e) n) + (if (Run.run env c (Run.start c e) n).eng.stack = [] then 1 else 0) ∧
    ∀ (k : Nat) (x : Eng), (statesIn (Taped.after env c (Taped.start c e0 e inputs orig) n).log)[k]? = some x →
      ∃ m ≤ n, x = (Run.run env c (Run.start c e) m).eng ∧ BetweenSteps x ∧ stepsBegun c (Run.run env c (Run.start c e) m) = k + firstRecorded c := by
  have hrun : ∀ m, (Taped.after env c (Taped.start c e0 e inputs orig) m).run = Run.run env c (Run.start c e) m := fun m => C94_same m
  have hmono : ∀ m, m ≤ n → (Taped.after env c (Taped.start c e0 e inputs orig) m).run.done = false := by
    intro m hm
    obtain ⟨j, rfl⟩ : ∃ j, n = m + j := ⟨n - m, by omega⟩
    clear hc
    induction j with
    | zero => exact hd
    | succ j ih =>
      refine ih ?_ (by omega)
      cases hx : (Taped.after env c (Taped.start c e0 e inputs orig) (m + j)).run.done with
      | false => rfl
      | true =>
        have : (Taped.after env c (Taped.start c e0 e inputs orig) (m + (j + 1))).run = (Taped.after env c (Taped.start c e0 e inputs orig) (m + j)).run := by
          show (Taped.step env c (Taped.after env c (Taped.start c e0 e inputs orig) (m + j))).run = _
          rw [Taped.step_run, Run.step_done hx]
        rw [this, hx] at hd; cases hd
  have hex : Taped.Exact env c ((e0.flowRec inputs orig).map .start) (Taped.start c e0 e inputs orig) n := by
    clear hd
    induction n with
    | zero =>
      refine ⟨if 0 < c.initStep then [] else [e], ?_, ?_, ?_⟩
      · show (Taped.start c e0 e inputs orig).log = _
        unfold Taped.start
        dsimp only
        split <;> rfl
      · have hk' : (Taped.after env c (Taped.start c e0 e inputs orig) 0).run.eng.stack = [] := hk
        rw [if_pos hk']
        show _ = (Taped.start c e0 e inputs orig).run.count - _ + 1
        unfold Spec.firstRecorded
        split <;> simp
      · intro k x hx
        split at hx
        · simp at hx
        · rename_i hi
          have hk0 : k = 0 := by
            cases k with
            | zero => rfl
            | succ z => simp at hx
          subst hk0
          cases hx
          refine ⟨0, Nat.le_refl _, rfl, hk, ?_, rfl⟩
          unfold Spec.firstRecorded
          rw [if_neg hi]
          show (Taped.start c e0 e inputs orig).run.count - (Taped.start c e0 e inputs orig).run.count = _
          simp
    | succ n ih =>
      have h1 := ih (fun m hm => hc m (by omega)) (fun m hm => hmono m (by omega))
      have hrn : (Taped.after env c (Taped.start c e0 e inputs orig) n).run.eng = Eng.run env e n := by
        rw [hrun n]
        exact Run.run_eng n (by rw [← hrun n]; exact hmono n (by omega))
      refine Taped.exact_step h1 ?_ (hmono (n + 1) (Nat.le_refl _)) ?_
      · rcases Taped.after_cases (env := env) (Taped.start_inv (c := c) (e0 := e0) (inputs := inputs) (orig := orig) he hk) rfl n with
          ⟨h, _⟩ | ⟨m, _, _, _, _, h4⟩
        · exact h.root
        · have := hmono n (by omega)
          rw [h4] at this
          have h5 : ((Taped.after env c (Taped.start c e0 e inputs orig) m).report c).run.done = true := Run.report_done _
          rw [h5] at this; cases this
      · rw [hrn]
        cases hm : (Eng.run env e n).midStep env with
        | none => rfl
        | some x =>
          obtain ⟨m, b⟩ := x
          obtain ⟨i, hi, hf⟩ := Eng.midStep_failed hm
          exact absurd hf (hc (n + 1) (Nat.le_refl _) i hi)
  obtain ⟨L, h1, h2, h3⟩ := hex.log
  have hs : statesIn (Taped.after env c (Taped.start c e0 e inputs orig) n).log = L := by
    rw [h1, statesIn_append, statesIn_map]
    unfold Eng.flowRec
    split <;> rfl
  rw [hs, ← hrun n]
  refine ⟨h2, fun k x hx => ?_⟩
  obtain ⟨m, m1, m2, m3, m4, _⟩ := h3 k x hx
  exact ⟨m, m1, by rw [← hrun m]; exact m2, m3, by rw [← hrun m]; exact m4⟩

/-- C94: while the run goes on, no end is recorded. When it has ended without exhausting its steps, the last call of the recorder, and no
other, is the record of the end, with the status of the flow; for a completed flow its outputs are those delivered.

Partial: missing are runs that end because of the step limit (`C94_negation_limit`). -/
theorem C94_end_partial (he : e.insts[0]? = some I) (hk : e.stack = []) (n : Nat) :
    ((Run.run env c (Run.start c e) n).done = false → endsIn (Taped.after env c (Taped.start c e0 e inputs orig) n).log = []) ∧
    ((Run.run env c (Run.start c e) n).done = true → ∀ J : Inst, (Run.run env c (Run.start c e) n).eng.insts[0]? = some J →
      ((Run.run env c (Run.start c e) n).count ≠ c.limit ∨ J.status = .completed) →
      ∃ f l, (Taped.after env c (Taped.start c e0 e inputs orig) n).log = l ++ [.done f] ∧ endsIn l = [] ∧
        f.id = (Run.run env c (Run.start c e) n).eng.id ∧ f.name = J.defn.name ∧ f.inputs = inputs ∧ f.status = J.status.eventName ∧
        (J.status = .completed → ∃ r, (Run.run env c (Run.start c e) n).results.head? = some r ∧ r.data = f.outputs)) := by
  have hends : ∀ L : List Eng, endsIn ((e0.flowRec inputs orig).map .start ++ L.map .state) = [] := by
    intro L
    rw [endsIn_append, endsIn_map]
    unfold Eng.flowRec
    split <;> rfl
  rw [← C94_same (e0 := e0) (inputs := inputs) (orig := orig) n]
  rcases Taped.after_cases (env := env) (Taped.start_inv (c := c) (e0 := e0) (inputs := inputs) (orig := orig) he hk) rfl n with
    ⟨h, hdn⟩ | ⟨m, _, h, hdm, _, h4⟩
  · obtain ⟨L, h1, _⟩ := h.log
    exact ⟨(fun _ => by rw [h1]; exact hends L), (fun h => by rw [hdn] at h; cases h)⟩
  · obtain ⟨L, h1, _⟩ := h.log
    obtain ⟨K, hK⟩ := h.root
    have hin : (Taped.after env c (Taped.start c e0 e inputs orig) m).inputs = inputs := Taped.after_inputs _ m
    rw [h4]
    generalize Taped.after env c (Taped.start c e0 e inputs orig) m = t at *
    have hrd : (t.report c).run.done = true := Run.report_done _
    refine ⟨(fun h => by rw [hrd] at h; cases h), fun _ J hJ hlim => ?_⟩
    have hJ' : (t.run.report c).eng.insts[0]? = some J := hJ
    obtain ⟨hcount, hid, hdata⟩ := Taped.report_facts (c := c) hK hJ'
    have hlim' : Taped.limitReached c t.run = false := by
      unfold Taped.limitReached
      rw [hK]
      simp only [decide_eq_false_iff_not]
      rintro ⟨hx, hy⟩
      rcases hlim with hl | hl
      · refine hl ?_
        show (t.run.report c).count = _
        rw [hcount]; exact hx
      · rw [hdata.1] at hl; exact hy hl
    refine ⟨{ id := t.run.eng.id, name := J.defn.name, inputs := inputs, outputs := J.fixReturnData.returnData, status := J.status.eventName },
      t.log, ?_, by rw [h1]; exact hends L, ?_⟩
    · unfold Taped.report
      dsimp only
      rw [hlim', flowRec_one hJ', hid, hin]
      rfl
    · refine ⟨hid.symm, rfl, rfl, rfl, fun hs => ?_⟩
      exact hdata.2 hs

/-- C94 fails: the end of a run that has used up its steps without completing is never recorded. -/
theorem C94_negation_limit (he : e.insts[0]? = some I) (hk : e.stack = []) (n : Nat) {J : Inst}
    (hJ : (Run.run env c (Run.start c e) n).eng.insts[0]? = some J) (hl : (Run.run env c (Run.start c e) n).count = c.limit) (hs : J.status ≠ .completed) :
    endsIn (Taped.after env c (Taped.start c e0 e inputs orig) n).log = [] := by
  have hends : ∀ L : List Eng, endsIn ((e0.flowRec inputs orig).map .start ++ L.map .state) = [] := by
    intro L
    rw [endsIn_append, endsIn_map]
    unfold Eng.flowRec
    split <;> rfl
  rw [← C94_same (e0 := e0) (inputs := inputs) (orig := orig) n] at hJ hl
  rcases Taped.after_cases (env := env) (Taped.start_inv (c := c) (e0 := e0) (inputs := inputs) (orig := orig) he hk) rfl n with
    ⟨h, _⟩ | ⟨m, _, h, _, _, h4⟩
  · obtain ⟨L, h1, _⟩ := h.log
    rw [h1]; exact hends L
  · obtain ⟨L, h1, _⟩ := h.log
    obtain ⟨K, hK⟩ := h.root
    rw [h4] at hJ hl ⊢
    generalize Taped.after env c (Taped.start c e0 e inputs orig) m = t at *
    obtain ⟨hcount, _, hst, _⟩ := Taped.report_facts (c := c) hK hJ
    have hl' : (t.run.report c).count = c.limit := hl
    have : Taped.limitReached c t.run = true := by
      unfold Taped.limitReached
      rw [hK]
      simp only [decide_eq_true_eq]
      exact ⟨by rw [← hcount]; exact hl', by rw [← hst]; exact hs⟩
    unfold Taped.report
    dsimp only
    rw [this, h1]
    simpa using hends L

/-- C94 fails: the record of the end never names the original instance. -/
theorem C94_negation_origin (he : e.insts[0]? = some I) (hk : e.stack = []) (n : Nat) :
    ∀ f ∈ endsIn (Taped.after env c (Taped.start c e0 e inputs orig) n).log, f.originalId = "" := by
  have hends : ∀ L : List Eng, endsIn ((e0.flowRec inputs orig).map .start ++ L.map .state) = [] := by
    intro L
    rw [endsIn_append, endsIn_map]
    unfold Eng.flowRec
    split <;> rfl
  intro f hf
  rcases Taped.after_cases (env := env) (Taped.start_inv (c := c) (e0 := e0) (inputs := inputs) (orig := orig) he hk) rfl n with
    ⟨h, _⟩ | ⟨m, _, h, _, _, h4⟩
  · obtain ⟨L, h1, _⟩ := h.log
    rw [h1, hends L] at hf; cases hf
  · obtain ⟨L, h1, _⟩ := h.log
    rw [h4] at hf
    unfold Taped.report at hf
    dsimp only at hf
    rw [h1, endsIn_append, hends L] at hf
    split at hf
    · cases hf
    · rw [endsIn_done] at hf
      unfold Eng.flowRec at hf
      split at hf
      · cases hf
      · simp only [List.nil_append, List.mem_singleton] at hf
        subst hf; rfl

/-- A recorded run of the flow `d` from its start. -/
def tapedRun (env : Env) (c : RunCfg) (d : Def) (orig : String) (n : Nat) : Taped :=
  Taped.after env c (Taped.start c (Eng.new "1" "u" d) (Run.startEng env { recorder := true } "1" "u" d []) [] orig) n

/-- What a record says: the status of the start or the end, or the status of the flow instances and of the first task of the flow, and
the number of work items. -/
def recordOf : RecEv → String × List FlowStatus × Option TaskStatus × Nat
  | .start f => (f.status, [], none, 0)
  | .done f => (f.status, [], none, 0)
  | .state e => ("", e.insts.map (·.status), (e.obj? 0 0).map (·.status), e.queue.length)

/-- C94 fails: if a called flow fails, two states are recorded for one step, and in the first of them the called flow has failed, the
calling task waits and nothing is left to be done. -/
theorem C94_negation_twice :
    (tapedRun failSub { limit := 100 } hostFlow "" 20).run.count = 3 ∧
    (tapedRun failSub { limit := 100 } hostFlow "" 20).log.map recordOf =
      [("Created", [], none, 0), ("", [.active], some .ready, 1), ("", [.active, .active], some .waiting, 1), ("", [.active, .failed], some .waiting, 0),
       ("", [.active, .failed], some .waiting, 1), ("", [.failed, .failed], some .failed, 0), ("Failed", [], none, 0)] := by
  decide +kernel

/-- A task that waits for ever. -/
def waits : Env := tableEnv (fun _ => { res := .wait }) (fun _ => .ok true)

/-- C94 fails: the end of a flow that can do nothing more is recorded with the status of a running flow. -/
theorem C94_negation_stalled :
    (tapedRun waits { limit := 100 } { name := "f", main := ⟨[{ tk "A" with act := .async }], []⟩ } "" 20).run.done = true ∧
    (endsIn (tapedRun waits { limit := 100 } { name := "f", main := ⟨[{ tk "A" with act := .async }], []⟩ } "" 20).log).map (·.status) = ["Started"] := by
  decide +kernel

/-- Two tasks. -/
def twoRecorded : Def := { name := "f", main := ⟨[tk "A", tk "B"], []⟩ }

/-- The hypotheses hold for a flow that is started. -/
example : ∃ I, (Run.startEng plainEnv { recorder := true } "1" "u" twoRecorded []).insts[0]? = some I ∧
    (Run.startEng plainEnv { recorder := true } "1" "u" twoRecorded []).stack = [] := ⟨_, rfl, rfl⟩
/-- A run within its limit, one that exceeds it, and one that continues at a later step. -/
example : (tapedRun plainEnv { limit := 100 } twoRecorded "7" 20).log.map recordOf =
    [("Created", [], none, 0), ("", [.active], some .ready, 2), ("", [.active], some .done, 1), ("", [.completed], some .done, 0), ("Completed", [], none, 0)] ∧
    (startsIn (tapedRun plainEnv { limit := 100 } twoRecorded "7" 20).log).map (·.originalId) = ["7"] := by decide +kernel
example : (tapedRun plainEnv { limit := 1 } twoRecorded "7" 20).log.map recordOf =
    [("Created", [], none, 0), ("", [.active], some .ready, 2), ("", [.active], some .done, 1)] ∧
    (tapedRun plainEnv { limit := 1 } twoRecorded "7" 20).run.done = true := by decide +kernel
example : (tapedRun plainEnv { limit := 100, initStep := 5 } twoRecorded "7" 20).log.map recordOf =
    [("Created", [], none, 0), ("", [.active], some .done, 1), ("", [.completed], some .done, 0), ("Completed", [], none, 0)] ∧
    (tapedRun plainEnv { limit := 100, initStep := 5 } twoRecorded "7" 20).run.count = 6 := by decide +kernel
/-- A called flow that completes: no called flow fails, and every state is recorded once. -/
example : (tapedRun (calledFails .done) { limit := 100 } hostFlow "" 3).run.done = false ∧
    ((List.range 4).all fun m => decide (flowStatus (Eng.run (calledFails .done) (Run.startEng (calledFails .done) { recorder := true } "1" "u" hostFlow []) m) 1 ≠
      some .failed)) = true := by decide +kernel

end Flow
