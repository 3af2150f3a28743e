import Verif.Proofs.Ends

/-!
Property theorems about the end of runs: C103.
-/

namespace Flow
open Spec

variable {env : Env} {c : RunCfg}

theorem ends_done (c : RunCfg) (id uri : String) {d : Def} (ins : AMap String Val) (hd : Tame d)
    (hs : ∀ u d', env.defs u = .ok (some d') → Tame d') : ∃ n, (after env c (Eng.init env id uri d ins) n).done = true :=
  Ends.ends c hs _ (Run.start c (Eng.init env id uri d ins))
    ⟨Eng.engOK_init id uri d ins, fun j J hJ => by show Tame J.defn; rw [(Ends.init_inst id uri d ins hJ).1]; exact hd, rfl⟩ (Nat.lt_succ_self _)

/-- C103: a run ends after finitely many steps and then stays as it is, whatever its activities do and whatever the mappings,
conditions and link expressions evaluate to: for every step limit, also with loops that never stop, flows that call themselves,
and circles of links.

Partial: in the flow and in every flow that can be called the links of the flow and of its error handler must form no circle, or links
have different identifiers and the flow and its error handler have no task identifiers in common (`C103_negation_recursion`). -/
theorem C103_ends_partial (c : RunCfg) (id uri : String) {d : Def} (ins : AMap String Val) (hd : Tame d)
    (hs : ∀ u d', env.defs u = .ok (some d') → Tame d') :
    ∃ n, ∀ k, (after env c (Eng.init env id uri d ins) (n + k)).done = true ∧
      after env c (Eng.init env id uri d ins) (n + k) = after env c (Eng.init env id uri d ins) n := by
  obtain ⟨n, hn⟩ := ends_done c id uri ins hd hs
  have key : ∀ k, after env c (Eng.init env id uri d ins) (n + k) = after env c (Eng.init env id uri d ins) n := by
    intro k
    induction k with
    | zero => rfl
    | succ k ih =>
      show (Run.run env c (Run.start c (Eng.init env id uri d ins)) (n + k)).step env c = _
      rw [show Run.run env c (Run.start c (Eng.init env id uri d ins)) (n + k) = after env c (Eng.init env id uri d ins) n from ih]
      exact Run.step_done hn
  exact ⟨n, fun k => ⟨by rw [key k]; exact hn, key k⟩⟩

/-- How a run may end: with the results of a completed flow, with the error of a failed flow, with the limit error, or without any
result, while the flow is active and nothing is left to do. -/
inductive EndsAs (c : RunCfg) (r : Run) (J : Inst) : Prop
  | completed (h : J.status = .completed) (hr : r.results = [⟨J.returnData, J.returnError⟩])
  | failed (h : J.status = .failed) (hr : r.results = [⟨none, J.returnError⟩])
  | limit (h : J.status ≠ .completed) (hc : r.count = c.limit) (hr : r.results = [⟨none, some (limitErr r.eng.id c.limit)⟩])
  | stuck (h : J.status = .active) (hq : r.eng.queue = []) (hr : r.results = [])

theorem ended_as {e : Eng} (h : Started env e) (hc : c.returnId = false) (hx : c.exceptionAssert = false) (hl : (Run.start c e).count ≤ c.limit) {n : Nat}
    (hd : (after env c e n).done = true) : ∃ J, (after env c e n).eng.insts[0]? = some J ∧ EndsAs c (after env c e n) J := by
  rcases h.cases c n with ⟨_, h2⟩ | ⟨m, _, h1, h2, h3, _, h4, h5⟩
  · rw [show (after env c e n).done = false from h2] at hd; cases hd
  · have hm := (C17_results_only_at_end h hc m).1 h2
    have hreach : Reachable env (after env c e m).eng := by
      obtain ⟨id, uri, d, ins, rfl⟩ := h
      exact ⟨id, uri, d, ins, m, Run.run_eng m h2⟩
    have hr : after env c e n = (after env c e m).report c := h3
    rw [hr]
    obtain ⟨I, J, hI, hJ, hst, hre, hct, _, hid, r1, r2, r3, r4⟩ := report_results (c := c) (r := after env c e m) h1.len
    refine ⟨J, hJ, ?_⟩
    have hlv := Ends.live hreach 0 I hI
    have hfs : flowStatus (after env c e m).eng 0 = some I.status := by unfold flowStatus; rw [hI]; rfl
    by_cases hs : I.status = .completed
    · exact .completed (hst.trans hs) (by rw [(r1 hs).2, hm])
    · by_cases hcl : (after env c e m).count = c.limit
      · exact .limit (by rw [hst]; exact hs) (hct.trans hcl) (by rw [r2 hs hcl, hm, hid])
      · by_cases hf : I.status = .failed
        · exact .failed (hst.trans hf) (by rw [r3 hf hcl, hm, hx]; rfl)
        · have ha : I.status = .active := by
            rcases hlv with h | h | h
            · exact h
            · exact absurd h hs
            · exact absurd h hf
          have hle : (after env c e m).count ≤ max (Run.start c e).count c.limit := h1.limit
          have hw : (after env c e m).hasWork = false := by
            have h6 := h5 _ hfs
            unfold Run.goesOn at h6
            rw [ha] at h6
            have : decide ((Run.run env c (Run.start c e) m).count < c.limit) = true := by
              apply decide_eq_true
              show (after env c e m).count < c.limit
              omega
            rw [this] at h6
            simpa using h6
          have hq : (after env c e m).eng.queue = [] := by
            rcases (h1.work hw).2 with h | h
            · rw [hfs, ha] at h; exact absurd rfl h
            · exact h
          have hrep : ((after env c e m).report c).eng = (after env c e m).eng := by
            unfold Run.report
            rw [hI]
            dsimp only
            rw [if_neg (fun h => hcl h.1), ha]
          exact .stuck (hst.trans ha) (by rw [hrep]; exact hq) (by rw [r4 hs hf hcl, hm])

/-- C103: every run ends in one of four ways. Except in the last one the caller is given exactly one result by the run.

Partial: the same flows as `C103_ends_partial`; without the option that returns the identifier, without an exception assertion
(`C17_negation_assertion`), and with a first step not beyond the limit. What activities reply themselves is not counted
(`C17_negation_reply`). -/
theorem C103_outcome_partial (id uri : String) {d : Def} (ins : AMap String Val) (hd : Tame d) (hs : ∀ u d', env.defs u = .ok (some d') → Tame d')
    (hc : c.returnId = false) (hx : c.exceptionAssert = false) (hl : (Run.start c (Eng.init env id uri d ins)).count ≤ c.limit) :
    ∃ n J, (after env c (Eng.init env id uri d ins) n).done = true ∧ (after env c (Eng.init env id uri d ins) n).eng.insts[0]? = some J ∧
      EndsAs c (after env c (Eng.init env id uri d ins) n) J := by
  obtain ⟨n, hn⟩ := ends_done c id uri ins hd hs
  obtain ⟨J, h1, h2⟩ := ended_as ⟨id, uri, d, ins, rfl⟩ hc hx hl hn
  exact ⟨n, J, hn, h1, h2⟩

/-- A flow whose only task calls the flow itself. -/
def selfCalling : Def := { name := "f", main := ⟨[{ tk "A" with act := .subflow "u" }], []⟩ }

def selfEnv : Env := { plainEnv with defs := fun u => if u = "u" then .ok (some selfCalling) else .ok none }

-- non-trivial instances: the flow with a circle of C89 has no numbering of its tasks, but links with different identifiers and no
-- error handler; its run ends without a result. The flow that calls itself for ever is stopped by the limit
example : Tame circular := .inr ⟨by unfold LinksDistinct; decide, by unfold Apart; decide⟩
example : ¬ NoCircle circular := fun ⟨r, h⟩ => by
  have h1 := h ⟨1, "B", "C", .dependency, ""⟩ (by decide)
  have h2 := h ⟨2, "C", "B", .dependency, ""⟩ (by decide)
  exact absurd h1 (Nat.lt_asymm h2)
example : (fun r : Run => (r.done, flowStatus r.eng 0, r.count, r.results.length))
    (after plainEnv { limit := 100 } (Eng.init plainEnv "1" "u" circular []) 40) = (true, some .active, 3, 0) := by decide
example : ∀ u d', selfEnv.defs u = .ok (some d') → Tame d' := by
  intro u d' h
  by_cases hu : u = "u"
  · have : selfEnv.defs u = .ok (some selfCalling) := if_pos hu
    rw [this] at h
    cases h
    exact .inl ⟨fun _ => 0, fun l hl => nomatch hl⟩
  · have : selfEnv.defs u = .ok none := if_neg hu
    rw [this] at h
    cases h
example : (fun r : Run => (r.done, flowStatus r.eng 0, r.count, r.results.map fun x => x.err.map Err.msg))
    (after selfEnv { limit := 20 } (Eng.init selfEnv "1" "u" selfCalling []) 60) =
      (true, some .active, 20, [some (limitErr "1" 20).msg]) := by decide +kernel

/-! ### A run that never ends -/

/-- The flow has a link from A to B, its error handler one from B to A. A waits for V and U; the second link of U fails. -/
def tangledSub : Def :=
  { name := "s"
    main := ⟨[tk "V", tk "U", tk "A", tk "B", tk "Z"],
      [⟨0, "V", "A", .expression, ""⟩, ⟨1, "U", "A", .expression, ""⟩, ⟨2, "U", "Z", .expression, ""⟩, ⟨3, "A", "B", .dependency, ""⟩]⟩
    eh := some ⟨[tk "H", tk "B", tk "A"], [⟨4, "H", "B", .expression, ""⟩, ⟨5, "B", "A", .dependency, ""⟩]⟩ }

/-- The flow that calls it. -/
def tangled : Def := { name := "f", main := ⟨[{ tk "P" with act := .subflow "s" }], []⟩ }

def tangledEnv : Env :=
  { tableEnv (fun _ => {}) (fun l => if l = 2 then .err "no such variable" else .ok false) with
    defs := fun u => if u = "s" then .ok (some tangledSub) else .ok none }

def tangledRun (n : Nat) : Run := after tangledEnv { limit := 100 } (Eng.init tangledEnv "1" "u" tangled []) n

/-- A (of the flow) and B (of the error handler) are in the table of tasks, their incoming links have been decided, and one of them
is entered next. -/
def Tangled (e : Eng) : Prop :=
  e.cur = 1 ∧ (∃ I, e.insts[1]? = some I ∧ I.defn = tangledSub ∧ I.force = false ∧ I.tasks.get? "A" = some 2 ∧ I.tasks.get? "B" = some 4 ∧
    (∃ ob, I.objs[2]? = some ob ∧ ob.task = ⟨false, "A"⟩) ∧ (∃ ob, I.objs[4]? = some ob ∧ ob.task = ⟨true, "B"⟩) ∧
    I.linkSt 0 = .false ∧ I.linkSt 1 = .false ∧ I.linkSt 4 = .false) ∧
  ∃ x rest, (x.task.id = "A" ∨ x.task.id = "B") ∧ e.stack = .enter [x] :: rest

theorem tangled_step {e : Eng} (h : Tangled e) : Tangled (e.step tangledEnv) ∧ e.stack.length < (e.step tangledEnv).stack.length := by
  obtain ⟨hc, ⟨I, hI, hd, hf, ha, hb, ⟨oa, ha1, ha2⟩, ⟨ob, hb1, hb2⟩, l0, l1, l4⟩, x, rest, hx, hs⟩ := h
  have key : ∀ o q, I.tasks.get? x.task.id = some o → I.objs[o]? = some q → enterDecision ((I.defn.fromLinks q.task).map (fun l => I.linkSt l.id)) = .skip →
      (∃ l, I.defn.toLinks q.task = [l] ∧ (l.dst = "A" ∨ l.dst = "B") ∧ 0 ≠ l.id ∧ 1 ≠ l.id ∧ 4 ≠ l.id) →
      Tangled (e.step tangledEnv) ∧ e.stack.length < (e.step tangledEnv).stack.length := by
    intro o q ht ho hdec ⟨l, hl, hdst, n0, n1, n4⟩
    obtain ⟨a1, ⟨J, a2, k⟩, a3⟩ := Ends.skip_again (env := tangledEnv) hs (hc ▸ hI) ht ho hf hdec (by rw [hl]; exact Nat.one_ne_zero)
    rw [hl] at a3 k
    have hk : ∀ n, n ≠ l.id → J.linkSt n = I.linkSt n := fun n hn => k.links n fun l' hl' => by
      rw [List.mem_singleton.1 hl']; exact hn.symm
    rw [hc] at a1 a2
    refine ⟨⟨a1, ⟨J, a2, k.defn.trans hd, k.force.trans hf, by rw [k.tasks]; exact ha, by rw [k.tasks]; exact hb, ?_, ?_, ?_, ?_, ?_⟩,
      ⟨⟨q.task.eh, l.dst⟩, 4⟩, _, hdst, a3⟩, ?_⟩
    · obtain ⟨o', b1, b2⟩ := k.objs 2 oa ha1; exact ⟨o', b1, b2.trans ha2⟩
    · obtain ⟨o', b1, b2⟩ := k.objs 4 ob hb1; exact ⟨o', b1, b2.trans hb2⟩
    · rw [hk 0 n0, l0]
    · rw [hk 1 n1, l1]
    · rw [hk 4 n4, l4]
    · rw [a3, hs]; simp only [List.length_cons]; omega
  rcases hx with hx | hx
  · refine key 2 oa (by rw [hx]; exact ha) ha1 ?_ ?_
    · rw [ha2, hd]
      show enterDecision [I.linkSt 0, I.linkSt 1] = .skip
      rw [l0, l1]; decide
    · rw [ha2, hd]
      exact ⟨⟨3, "A", "B", .dependency, ""⟩, by decide, .inr rfl, by decide, by decide, by decide⟩
  · refine key 4 ob (by rw [hx]; exact hb) hb1 ?_ ?_
    · rw [hb2, hd]
      show enterDecision [I.linkSt 4] = .skip
      rw [l4]; decide
    · rw [hb2, hd]
      exact ⟨⟨5, "B", "A", .dependency, ""⟩, by decide, .inl rfl, by decide, by decide, by decide⟩

theorem tangled_begin : Tangled (tangledRun 10).eng :=
  ⟨rfl, ⟨_, rfl, rfl, rfl, rfl, rfl, ⟨_, rfl, rfl⟩, ⟨_, rfl, rfl⟩, rfl, rfl, rfl⟩, _, _, .inl rfl, rfl⟩

/-- C103, negation: a run that never ends, although every activity returns at once. The called flow has a link from A to B, its error
handler one from B to A. Both tasks are skipped again and again, and the functions that do this call each other more and more deeply:
with every step there are more of them. The step limit cannot stop the run, since no work item is taken. -/
theorem C103_negation_recursion (n : Nat) :
    (tangledRun (10 + n)).done = false ∧ n ≤ (tangledRun (10 + n)).eng.stack.length ∧ (tangledRun (10 + n)).count = 4 := by
  suffices h : Tangled (tangledRun (10 + n)).eng ∧ (tangledRun (10 + n)).done = false ∧ n ≤ (tangledRun (10 + n)).eng.stack.length ∧
      (tangledRun (10 + n)).count = 4 from h.2
  induction n with
  | zero => exact ⟨tangled_begin, rfl, Nat.zero_le _, rfl⟩
  | succ n ih =>
    obtain ⟨h1, h2, h3, h4⟩ := ih
    obtain ⟨a, b⟩ := tangled_step h1
    have hst : tangledRun (10 + (n + 1)) = { tangledRun (10 + n) with eng := (tangledRun (10 + n)).eng.step tangledEnv } := by
      show (tangledRun (10 + n)).step tangledEnv { limit := 100 } = _
      obtain ⟨_, _, x, rest, _, hs⟩ := h1
      unfold Run.step
      rw [if_neg (by rw [h2]; decide), hs]
    rw [hst]
    exact ⟨a, h2, Nat.succ_le_of_lt (Nat.lt_of_le_of_lt h3 b), h4⟩

end Flow
