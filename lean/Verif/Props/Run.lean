import Verif.Proofs.Run
import Verif.Props.Results

/-
Runs by an action: results delivered (C17), step limit (C18), what the caller receives (C12, C13), observation (C28), and
the items executed by a step (C47).

`Run.run env c (Run.start c e) n` is the state after `n` micro steps of a run with options `c` that starts with engine
state `e`; `Started env e` says that `e` is a freshly started flow.
-/

namespace Flow
open Spec

variable {env : Env} {c : RunCfg}

/-- A freshly started flow. -/
def Started (env : Env) (e : Eng) : Prop := ∃ id uri d ins, e = Eng.init env id uri d ins

/-- The state after `n` micro steps. -/
abbrev after (env : Env) (c : RunCfg) (e : Eng) (n : Nat) : Run := Run.run env c (Run.start c e) n

theorem Started.reachable {e : Eng} (h : Started env e) : Reachable env e := by
  obtain ⟨id, uri, d, ins, rfl⟩ := h; exact ⟨id, uri, d, ins, 0, rfl⟩

theorem Started.cases (c : RunCfg) {e : Eng} (h : Started env e) (n : Nat) :
    (Run.Inv env c (Run.start c e) (after env c e n) ∧ (after env c e n).done = false) ∨
    ∃ m, m < n ∧ Run.Inv env c (Run.start c e) (after env c e m) ∧ (after env c e m).done = false ∧
      after env c e n = (after env c e m).report c ∧ after env c e (m + 1) = (after env c e m).report c ∧ (after env c e m).eng.stack = [] ∧
      ∀ s, flowStatus (after env c e m).eng 0 = some s → (after env c e m).goesOn c s = false :=
  Run.run_cases (env := env) (c := c) (r0 := Run.start c e) rfl (Eng.insts_pos h.reachable) rfl n

/-! ### C47 -/

/-- C47: a step that takes an item removes exactly this item; new items are added at the end. A step that takes no item
removes none. -/
theorem C47_step {e : Eng} (hr : Reachable env e) :
    match next env e with
    | some w => ∃ l, (e.step env).queue = e.queue.eraseIdx (env.pick e % e.queue.length) ++ l ∧
        e.queue[env.pick e % e.queue.length]? = some w
    | none => ∃ l, (e.step env).queue = e.queue ++ l := by
  have h := Eng.step_adds (env := env) (Eng.insts_pos hr)
  cases hn : next env e with
  | none => rw [hn] at h; obtain ⟨l, h, _⟩ := h; exact ⟨l, h⟩
  | some w => rw [hn] at h; obtain ⟨l, h, _⟩ := h; exact ⟨l, h, (Eng.next_some hn).2.2⟩

/-- C47: a step of an active flow between two items executes exactly one item if one is pending. -/
theorem C47_executes_one {e : Eng} (hr : Reachable env e) (hs : e.stack = []) (ha : flowStatus e 0 = some .active) :
    executed (e.step env) = executed e + if e.queue = [] then 0 else 1 := by
  rw [Eng.step_executed (Eng.insts_pos hr)]
  have hn : next env e = e.queue[env.pick e % e.queue.length]? := if_pos ⟨hs, ha⟩
  rw [hn]
  cases hq : e.queue with
  | nil => rfl
  | cons w ws =>
    have : env.pick e % (w :: ws).length < (w :: ws).length := Nat.mod_lt _ (by simp)
    rw [List.getElem?_eq_getElem this]
    simp

/-! ### C18 -/

/-- C18, sequential mode: a run executes at most as many work items as the limit allows; a run that continues with step
`initStep` counts the earlier steps. -/
theorem C18_at_most {e : Eng} (h : Started env e) (n : Nat) :
    (executed (after env c e n).eng : Int) ≤ executed e + max 0 (c.limit - max 0 (c.initStep - 1)) := by
  have hcount : (Run.start c e).count = max 0 (c.initStep - 1) := by
    unfold Run.start; dsimp only; split <;> omega
  rw [← hcount]
  have hinv : ∀ r, Run.Inv env c (Run.start c e) r → (executed r.eng : Int) ≤ executed e + max 0 (c.limit - (Run.start c e).count) := by
    intro r hr
    have h1 := hr.executed
    have h2 := hr.limit
    have h3 := hr.count
    have : (Run.start c e).eng = e := rfl
    rw [this] at h1
    omega
  rcases h.cases c n with ⟨h1, _⟩ | ⟨m, _, h1, _, h3, _⟩
  · exact hinv _ h1
  · have : executed (after env c e n).eng = executed (after env c e m).eng := by
      rw [h3]
      unfold Run.report
      split
      · rfl
      · split
        · rfl
        · split <;> rfl
    rw [this]; exact hinv _ h1

/-- A freshly started flow has executed nothing. -/
theorem C18_starts_at_zero {e : Eng} (h : Started env e) : executed e = 0 := by
  obtain ⟨id, uri, d, ins, rfl⟩ := h
  obtain ⟨l, _, h2⟩ := Eng.Adds.startInstance (env := env) (Eng.new id uri d) 0 ins
  unfold executed Eng.init
  rw [h2]
  simp only [Eng.new, List.append_nil, List.countP_eq_zero, List.mem_reverse, List.mem_map]
  rintro x ⟨y, _, rfl⟩
  simp [isRemoved]

/-- C18, sequential mode: a run that ends while its flow is still active with work left reports the limit error, and
nothing else, provided it did not start beyond the limit. -/
theorem C18_limit_reported {e : Eng} (h : Started env e) (hc : c.returnId = false) (hl : (Run.start c e).count ≤ c.limit)
    {n : Nat} (hd : (after env c e n).done = true) (ha : flowStatus (after env c e n).eng 0 = some .active)
    (hq : (after env c e n).eng.queue ≠ []) :
    (after env c e n).results = [⟨none, some (limitErr (after env c e n).eng.id c.limit)⟩] := by
  rcases h.cases c n with ⟨_, h2⟩ | ⟨m, _, h1, h2, h3, _, h4, h5⟩
  · rw [show (after env c e n).done = false from h2] at hd; cases hd
  · have hr : after env c e n = (after env c e m).report c := h3
    rw [hr] at ha hq ⊢
    have hI : ∃ I, (after env c e m).eng.insts[0]? = some I := ⟨_, List.getElem?_eq_getElem h1.len⟩
    obtain ⟨I, hI⟩ := hI
    have hfs : flowStatus (after env c e m).eng 0 = some I.status := by unfold flowStatus; rw [hI]; rfl
    have hres : (after env c e m).results = [] := by
      rw [h1.results]; unfold Run.start; rw [hc]; rfl
    unfold Run.report at ha hq ⊢
    rw [hI] at ha hq ⊢
    dsimp only at ha hq ⊢
    split at ha
    · rename_i hx
      rw [if_pos hx]
      dsimp only
      rw [hres]
    · rename_i hx
      exfalso
      cases hs : I.status with
      | completed =>
        rw [hs] at ha
        dsimp only at ha
        unfold flowStatus at ha
        rw [Eng.modI_self hI] at ha
        have hst : ∀ J : Inst, (Inst.fixReturnData J).status = J.status := by
          intro J; unfold Inst.fixReturnData; split
          · rfl
          · split <;> rfl
        have hs' : (Inst.fixReturnData I).status = .active := Option.some.inj ha
        rw [hst, hs] at hs'
        cases hs'
      | active =>
        rw [hs] at hx hq
        rw [if_neg hx] at hq
        dsimp only at hq
        have h6 := h5 _ hfs
        unfold Run.goesOn at h6
        rw [hs] at h6
        have h7 : (after env c e m).hasWork = true := by
          cases hw : (after env c e m).hasWork with
          | true => rfl
          | false =>
            rcases (h1.work hw).2 with h | h
            · rw [hfs, hs] at h; exact absurd rfl h
            · exact absurd h hq
        have h8 : ¬ (after env c e m).count < c.limit := by
          intro h
          rw [show (Run.run env c (Run.start c e) m).hasWork = true from h7] at h6
          have : decide ((Run.run env c (Run.start c e) m).count < c.limit) = true := by simpa using h
          rw [this] at h6
          cases h6
        apply hx
        refine ⟨?_, by simp⟩
        have h9 : (after env c e m).count ≤ max (Run.start c e).count c.limit := h1.limit
        omega
      | notStarted =>
        rw [hs] at ha; dsimp only at ha; unfold flowStatus at ha; rw [hI] at ha
        simp [hs] at ha
      | cancelled =>
        rw [hs] at ha; dsimp only at ha; unfold flowStatus at ha; rw [hI] at ha
        simp [hs] at ha
      | failed =>
        rw [hs] at ha; dsimp only at ha; unfold flowStatus at ha; rw [hI] at ha
        simp [hs] at ha

-- non-trivial instance: the second step of a chain of three tasks is the last one allowed
def limit2 : RunCfg := { limit := 2 }
example : Started failing (Eng.init failing "1" "u" chain []) := ⟨_, _, _, _, rfl⟩
example : (fun r : Run => (r.done, executed r.eng, flowStatus r.eng 0, r.eng.queue.length, r.results.length))
    (after plainEnv limit2 (Eng.init plainEnv "1" "u" chain []) 40) = (true, 2, some .active, 1, 1) := by decide
example : ((after plainEnv { limit := 100 } (Eng.init plainEnv "1" "u" chain []) 40).results.map (fun x => x.err.isSome)) = [false] := by
  decide

theorem loop_inv (limit : Int) {e : Eng} (hl : 0 < e.insts.length) (n : Nat) :
    0 < (Loop.run env limit { eng := e } n).eng.insts.length ∧
    (executed (Loop.run env limit { eng := e } n).eng : Int) = executed e + (Loop.run env limit { eng := e } n).count ∧
    0 ≤ (Loop.run env limit { eng := e } n).count ∧ (Loop.run env limit { eng := e } n).count ≤ max 0 (limit + 1) ∧
    ((Loop.run env limit { eng := e } n).over = true → limit < (Loop.run env limit { eng := e } n).count) := by
  induction n with
  | zero => exact ⟨hl, by show (executed e : Int) = executed e + 0; omega, Int.le_refl 0, by show (0 : Int) ≤ _; omega, fun h => (Bool.false_ne_true h).elim⟩
  | succ n ih =>
    obtain ⟨h1, h2, h3, h4, h5⟩ := ih
    show 0 < (Loop.step env limit (Loop.run env limit { eng := e } n)).eng.insts.length ∧
      (executed (Loop.step env limit (Loop.run env limit { eng := e } n)).eng : Int) = executed e + (Loop.step env limit (Loop.run env limit { eng := e } n)).count ∧
      0 ≤ (Loop.step env limit (Loop.run env limit { eng := e } n)).count ∧ (Loop.step env limit (Loop.run env limit { eng := e } n)).count ≤ max 0 (limit + 1) ∧
      ((Loop.step env limit (Loop.run env limit { eng := e } n)).over = true → limit < (Loop.step env limit (Loop.run env limit { eng := e } n)).count)
    generalize Loop.run env limit { eng := e } n = l at *
    unfold Loop.step
    split
    · exact ⟨h1, h2, h3, h4, h5⟩
    · rename_i hov
      split
      · rename_i f fs hst
        have hx := Eng.step_executed (env := env) h1
        have hn : next env l.eng = none := if_neg (fun hc => by rw [hst] at hc; cases hc.1)
        rw [hn] at hx
        refine ⟨Run.insts_mono env h1, ?_, h3, h4, fun h => absurd h hov⟩
        show (executed (l.eng.step env) : Int) = executed e + l.count
        rw [hx]
        simpa using h2
      · rename_i hst
        split
        · exact ⟨h1, h2, h3, h4, h5⟩
        · rename_i I hI
          split
          · rename_i hc
            split
            · rename_i hlt
              exact ⟨h1, h2, h3, h4, fun _ => hlt⟩
            · rename_i hlt
              have ha : flowStatus l.eng 0 = some .active := by unfold flowStatus; rw [hI]; exact congrArg some hc.1
              have hx := Eng.step_executed (env := env) h1
              have hn : next env l.eng = l.eng.queue[env.pick l.eng % l.eng.queue.length]? := if_pos ⟨hst, ha⟩
              rw [hn] at hx
              have hpos : 0 < l.eng.queue.length := List.length_pos_iff.2 hc.2
              rw [List.getElem?_eq_getElem (Nat.mod_lt _ hpos)] at hx
              refine ⟨Run.insts_mono env h1, ?_, ?_, ?_, fun h => absurd h hov⟩
              · show (executed (l.eng.step env) : Int) = executed e + (l.count + 1)
                rw [hx]
                simp
                omega
              · show 0 ≤ l.count + 1
                omega
              · show l.count + 1 ≤ max 0 (limit + 1)
                omega
          · exact ⟨h1, h2, h3, h4, h5⟩

/-- C18, concurrent mode: a run stops after at most one work item more than the limit allows.

Partial: the limit itself is exceeded by one (`C18_negation_concurrent`). -/
theorem C18_loop_partial {e : Eng} (h : Started env e) (limit : Int) (n : Nat) :
    (executed (Loop.run env limit { eng := e } n).eng : Int) ≤ max 0 (limit + 1) := by
  obtain ⟨_, h2, _, h4, _⟩ := loop_inv (env := env) limit (Eng.insts_pos h.reachable) n
  have h0 := C18_starts_at_zero h
  omega

/-- C18, concurrent mode: the limit is reported only after more work items than it allows have been executed, and while there is
work left. -/
theorem C18_loop_reported_partial {e : Eng} (h : Started env e) (limit : Int) (n : Nat)
    (ho : (Loop.run env limit { eng := e } n).over = true) : limit < executed (Loop.run env limit { eng := e } n).eng := by
  obtain ⟨_, h2, _, _, h5⟩ := loop_inv (env := env) limit (Eng.insts_pos h.reachable) n
  have h0 := C18_starts_at_zero h
  have := h5 ho
  omega

-- non-trivial instances: the limit is reported, or not
example : (fun l : Loop => (l.over, executed l.eng)) (Loop.run plainEnv 1 { eng := Eng.init plainEnv "1" "u" chain [] } 40) = (true, 2) := by decide
example : (fun l : Loop => (l.over, executed l.eng)) (Loop.run plainEnv 9 { eng := Eng.init plainEnv "1" "u" chain [] } 40) = (false, 3) := by decide

/-- C18 fails for concurrent task execution: the loop executes one item more than the limit allows. -/
theorem C18_negation_concurrent : executed (Loop.run plainEnv 2 { eng := Eng.init plainEnv "1" "u" chain [] } 40).eng = 3 := by decide

/-- C18 fails for a run that continues beyond the limit: it is stopped before the first step, without any result. -/
theorem C18_negation_restart :
    (fun r : Run => (r.done, executed r.eng, flowStatus r.eng 0, delivered r))
      (after plainEnv { limit := 2, initStep := 4 } (Eng.init plainEnv "1" "u" chain []) 40) = (true, 0, some .active, 0) := by decide

/-! ### C17 -/

/-- A run with one more result before all others. -/
abbrev Run.preceded (r : Run) (x : Result) : Run := { r with results := r.results ++ [x] }

theorem report_preceded (r : Run) (x : Result) (b : Bool) :
    (r.preceded x).report { c with returnId := b } = (r.report c).preceded x := by
  unfold Run.report
  show (match r.eng.insts[0]? with | none => _ | some I => _) = _
  cases r.eng.insts[0]? with
  | none => rfl
  | some I =>
    dsimp only
    split
    · rfl
    · cases I.status <;> first | rfl | (dsimp only; split <;> rfl)

theorem step_preceded (r : Run) (x : Result) (b : Bool) :
    (r.preceded x).step env { c with returnId := b } = (r.step env c).preceded x := by
  unfold Run.step
  show (if r.done then r.preceded x else match r.eng.stack with | _ :: _ => _ | [] => _) = _
  by_cases hd : r.done = true
  · rw [if_pos hd, if_pos hd]
  · rw [if_neg hd, if_neg hd]
    cases r.eng.stack with
    | cons f fs => rfl
    | nil =>
      dsimp only
      cases hI : r.eng.insts[0]? with
      | none => exact report_preceded r x b
      | some I =>
        dsimp only
        have hg : (r.preceded x).goesOn { c with returnId := b } I.status = r.goesOn c I.status := rfl
        rw [hg]
        by_cases h : r.goesOn c I.status = true
        · rw [if_pos h, if_pos h]
        · rw [if_neg h, if_neg h]; exact report_preceded r x b

/-- C17, the identifier on request: a caller that asks for the identifier of the instance gets it first, as the value "id" of a result
without error; all further results, and the execution, are those without this request. -/
theorem C17_identifier (e : Eng) (n : Nat) :
    after env { c with returnId := true } e n =
      (after env { c with returnId := false } e n).preceded ⟨some [("id", .str e.id)], none⟩ := by
  induction n with
  | zero => rfl
  | succ n ih =>
    show Run.step env { c with returnId := true } (after env { c with returnId := true } e n) = _
    rw [ih]
    exact step_preceded (c := { c with returnId := false }) _ _ true


theorem status_fixReturnData (I : Inst) : I.fixReturnData.status = I.status := by
  unfold Inst.fixReturnData
  split
  · rfl
  · split <;> rfl

theorem returnError_fixReturnData (I : Inst) : I.fixReturnData.returnError = I.returnError := by
  unfold Inst.fixReturnData
  split
  · rfl
  · split <;> rfl

/-- What the report of a run delivers, in terms of its final state. -/
theorem report_results {r : Run} (hl : 0 < r.eng.insts.length) :
    ∃ (I J : Inst), r.eng.insts[0]? = some I ∧ (r.report c).eng.insts[0]? = some J ∧ J.status = I.status ∧ J.returnError = I.returnError ∧
      (r.report c).count = r.count ∧ (r.report c).eng.replies = r.eng.replies ∧ (r.report c).eng.id = r.eng.id ∧
      (I.status = .completed → J.returnData = I.fixReturnData.returnData ∧
        (r.report c).results = ⟨J.returnData, J.returnError⟩ :: r.results) ∧
      (I.status ≠ .completed → r.count = c.limit → (r.report c).results = ⟨none, some (limitErr r.eng.id c.limit)⟩ :: r.results) ∧
      (I.status = .failed → r.count ≠ c.limit →
        (r.report c).results = ⟨none, J.returnError⟩ :: if c.exceptionAssert then ⟨none, none⟩ :: r.results else r.results) ∧
      (I.status ≠ .completed → I.status ≠ .failed → r.count ≠ c.limit → (r.report c).results = r.results) := by
  obtain ⟨I, hI⟩ : ∃ I, r.eng.insts[0]? = some I := ⟨_, List.getElem?_eq_getElem hl⟩
  by_cases h1 : r.count = c.limit ∧ I.status ≠ .completed
  · have hr : r.report c = { r with results := ⟨none, some (limitErr r.eng.id c.limit)⟩ :: r.results, done := true } := by
      unfold Run.report; rw [hI]; dsimp only; rw [if_pos h1]
    rw [hr]
    exact ⟨I, I, hI, hI, rfl, rfl, rfl, rfl, rfl, fun h => absurd h h1.2, fun _ _ => rfl, fun _ h => absurd h1.1 h, fun _ _ h => absurd h1.1 h⟩
  · cases hs : I.status with
    | completed =>
      have hr : r.report c = { r with eng := r.eng.modI 0 (fun _ => { I.fixReturnData with attrs := I.fixReturnData.attrs.update (I.fixReturnData.returnData.getD []) }), results := ⟨I.fixReturnData.returnData, I.fixReturnData.returnError⟩ :: r.results, done := true } := by
        unfold Run.report; rw [hI]; dsimp only; rw [if_neg h1, hs]
      rw [hr]
      exact ⟨I, _, hI, Eng.modI_self hI _, status_fixReturnData I, returnError_fixReturnData I, rfl, rfl, rfl, fun _ => ⟨rfl, rfl⟩,
        fun h => absurd hs h, fun h => (nomatch hs.symm.trans h), fun h => absurd hs h⟩
    | failed =>
      have hne : r.count ≠ c.limit := fun h => h1 ⟨h, by rw [hs]; simp⟩
      have hr : r.report c = { r with results := ⟨none, I.returnError⟩ :: (if c.exceptionAssert then ⟨none, none⟩ :: r.results else r.results), done := true } := by
        unfold Run.report; rw [hI]; dsimp only; rw [if_neg h1, hs]
      rw [hr]
      exact ⟨I, I, hI, hI, rfl, rfl, rfl, rfl, rfl, fun h => (nomatch hs.symm.trans h), fun _ h => absurd h hne, fun _ _ => rfl, fun _ h => absurd hs h⟩
    | _ =>
      have hne : r.count ≠ c.limit := fun h => h1 ⟨h, by rw [hs]; simp⟩
      have hr : r.report c = { r with done := true } := by
        unfold Run.report; rw [hI]; dsimp only; rw [if_neg h1, hs]
      rw [hr]
      exact ⟨I, I, hI, hI, rfl, rfl, rfl, rfl, rfl, fun h => (nomatch hs.symm.trans h), fun _ h => absurd h hne,
        fun h => (nomatch hs.symm.trans h), fun _ _ _ => rfl⟩

/-- C17: before it ends a run delivers nothing by itself (without the return-ID option), after its end its results never
change. -/
theorem C17_results_only_at_end {e : Eng} (h : Started env e) (hc : c.returnId = false) (n : Nat) :
    ((after env c e n).done = false → (after env c e n).results = []) ∧
    ((after env c e n).done = true → ∀ k, after env c e (n + k) = after env c e n) := by
  constructor
  · intro hd
    rcases h.cases c n with ⟨h1, _⟩ | ⟨m, _, _, _, h3, _⟩
    · rw [h1.results]; unfold Run.start; rw [hc]; rfl
    · rw [h3, Run.report_done] at hd; cases hd
  · intro hd k
    induction k with
    | zero => rfl
    | succ k ih =>
      show (Run.run env c (Run.start c e) (n + k)).step env c = _
      have : (Run.run env c (Run.start c e) (n + k)) = after env c e n := ih
      rw [this]
      exact Run.step_done hd

/-- C17: at most one result is delivered, if no activity replies by itself and no exception assertion is configured. -/
theorem C17_at_most_one {e : Eng} (h : Started env e) (hc : c.returnId = false) (hx : c.exceptionAssert = false) (n : Nat)
    (hrep : (after env c e n).eng.replies = []) : delivered (after env c e n) ≤ 1 := by
  unfold delivered
  rw [hrep]
  rcases h.cases c n with ⟨h1, h2⟩ | ⟨m, _, h1, h2, h3, _⟩
  · rw [(C17_results_only_at_end h hc n).1 h2]; simp
  · have hm := (C17_results_only_at_end h hc m).1 h2
    rw [h3]
    obtain ⟨I, J, _, _, _, _, _, _, _, r1, r2, r3, r4⟩ := report_results (c := c) (r := after env c e m) h1.len
    by_cases hs : I.status = .completed
    · rw [(r1 hs).2, hm]; simp
    · by_cases hl : (after env c e m).count = c.limit
      · rw [r2 hs hl, hm]; simp
      · by_cases hf : I.status = .failed
        · rw [r3 hf hl, hm, hx]; simp
        · rw [r4 hs hf hl, hm]; simp

/-- C17: a run that has ended with a Completed or Failed flow, or at its step limit, has delivered exactly one result: the
return data and error of the flow, the error of the flow, or the limit error.

Partial: it excludes flows that end while they are still active (`C17_negation_none`), activities that reply by themselves
(`C17_negation_reply`) and configured exception assertions (`C17_negation_assertion`). -/
theorem C17_exactly_one_partial {e : Eng} (h : Started env e) (hc : c.returnId = false) (hx : c.exceptionAssert = false) {n : Nat}
    (hd : (after env c e n).done = true) (hrep : (after env c e n).eng.replies = []) {s : FlowStatus}
    (hs : flowStatus (after env c e n).eng 0 = some s) (hf : s = .completed ∨ s = .failed ∨ (after env c e n).count = c.limit) :
    delivered (after env c e n) = 1 ∧ ∃ J : Inst, (after env c e n).eng.insts[0]? = some J ∧
      (after env c e n).results =
        [if s = .completed then ⟨J.returnData, J.returnError⟩
         else if (after env c e n).count = c.limit then ⟨none, some (limitErr (after env c e n).eng.id c.limit)⟩
         else ⟨none, J.returnError⟩] := by
  have key : ∃ J : Inst, (after env c e n).eng.insts[0]? = some J ∧
      (after env c e n).results =
        [if s = .completed then ⟨J.returnData, J.returnError⟩
         else if (after env c e n).count = c.limit then ⟨none, some (limitErr (after env c e n).eng.id c.limit)⟩
         else ⟨none, J.returnError⟩] := by
    rcases h.cases c n with ⟨h1, h2⟩ | ⟨m, _, h1, h2, h3, _⟩
    · rw [h2] at hd; cases hd
    · have hm := (C17_results_only_at_end h hc m).1 h2
      rw [h3] at hs hf ⊢
      obtain ⟨I, J, hI, hJ, hst, hre, hct, _, hid, r1, r2, r3, r4⟩ := report_results (c := c) (r := after env c e m) h1.len
      have hss : s = I.status := by
        unfold flowStatus at hs; rw [hJ] at hs; rw [← hst]; exact (Option.some.inj hs).symm
      refine ⟨J, hJ, ?_⟩
      rw [hct, hid]
      rw [hct] at hf
      subst hss
      by_cases hs' : I.status = .completed
      · rw [(r1 hs').2, hm, if_pos hs']
      · rw [if_neg hs']
        by_cases hl : (after env c e m).count = c.limit
        · rw [r2 hs' hl, hm, if_pos hl]
        · have hfl : I.status = .failed := by
            rcases hf with hf | hf | hf
            · exact absurd hf hs'
            · exact hf
            · exact absurd hf hl
          rw [r3 hfl hl, hm, hx, if_neg hl]; rfl
  refine ⟨?_, key⟩
  obtain ⟨J, _, hr⟩ := key
  unfold delivered
  rw [hr, hrep]; rfl

-- non-trivial instances: a completed, a failed and a stopped run
example : (fun r : Run => (r.done, r.eng.replies.length, flowStatus r.eng 0, r.count)) (after plainEnv { limit := 100 } (Eng.init plainEnv "1" "u" chain []) 40) =
    (true, 0, some .completed, 3) := by decide
example : (fun r : Run => (r.done, r.eng.replies.length, flowStatus r.eng 0, r.count)) (after failing { limit := 100 } (Eng.init failing "1" "u" chain []) 40) =
    (true, 0, some .failed, 2) := by decide
example : (fun r : Run => (r.done, r.eng.replies.length, flowStatus r.eng 0, r.count)) (after plainEnv limit2 (Eng.init plainEnv "1" "u" chain []) 40) =
    (true, 0, some .active, 2) := by decide

/-- C17 fails: the run of a flow without tasks ends without a result. -/
theorem C17_negation_none : (fun r : Run => (r.done, flowStatus r.eng 0, delivered r))
    (after plainEnv { limit := 100 } (Eng.init plainEnv "1" "u" { name := "f", main := ⟨[], []⟩ } []) 40) = (true, some .active, 0) := by decide

/-- C17 fails: an activity that replies causes an additional result. -/
theorem C17_negation_reply : (fun r : Run => (r.done, flowStatus r.eng 0, delivered r))
    (after (tableEnv (fun _ => { reply := some ([], none) }) (fun _ => .ok true)) { limit := 100 }
      (Eng.init (tableEnv (fun _ => { reply := some ([], none) }) (fun _ => .ok true)) "1" "u" { name := "f", main := ⟨[tk "A"], []⟩ } []) 40) =
    (true, some .completed, 2) := by decide

/-- C17 fails: with an exception assertion a failed flow delivers two results. -/
theorem C17_negation_assertion : (fun r : Run => (r.done, flowStatus r.eng 0, delivered r))
    (after failing { limit := 100, exceptionAssert := true } (Eng.init failing "1" "u" chain []) 40) = (true, some .failed, 2) := by decide

/-! ### C13 -/

/-- While a run has not ended its engine is at the same step as the engine alone. -/
theorem after_eng {e : Eng} {n : Nat} (hd : (after env c e n).done = false) : (after env c e n).eng = Eng.run env e n :=
  Run.run_eng n hd

/-- If a run is not ended after `m` steps, it ends later. -/
theorem ends_later {e : Eng} (h : Started env e) {m n : Nat} (hm : (after env c e m).done = false) (hd : (after env c e n).done = true) :
    ∃ k, (after env c e (m + k)).done = false ∧ 0 < (after env c e (m + k)).eng.insts.length ∧
      after env c e n = (after env c e (m + k)).report c ∧ (after env c e (m + k)).results = (Run.start c e).results := by
  rcases h.cases c n with ⟨h1, h2⟩ | ⟨m', hlt, h1, h2, h3, h4, _⟩
  · rw [h2] at hd; cases hd
  · by_cases hle : m ≤ m'
    · obtain ⟨k, rfl⟩ := Nat.exists_eq_add_of_le hle
      exact ⟨k, h2, h1.len, h3, h1.results⟩
    · exfalso
      -- then the run would have ended before step `m`
      have hne : ∀ k, (after env c e (m' + 1 + k)).done = true := by
        intro k
        have h0 : (after env c e (m' + 1)).done = true := by rw [h4]; exact Run.report_done _
        induction k with
        | zero => exact h0
        | succ k ih => 
          show ((after env c e (m' + 1 + k)).step env c).done = true
          rw [Run.step_done ih]; exact ih
      obtain ⟨k, hk⟩ := Nat.exists_eq_add_of_le (show m' + 1 ≤ m by omega)
      have := hne k
      rw [← hk, hm] at this; cases this

/-- C13 for the caller: if a task of a top-level flow without error handler fails, has no error link, and the failure does
not happen in the last step allowed, the only result the caller receives is exactly that error.

Partial: in the last step allowed, the caller receives the limit error instead (`C13_negation_limit`). -/
theorem C13_caller_partial {e f : Eng} {o : Nat} {t : TaskRef} {err : Err} {I : Inst} {m n : Nat}
    (h : Started env e) (hc : c.returnId = false) (hx : c.exceptionAssert = false)
    (hI : (Eng.run env e m).insts[0]? = some I) (hev : Evaluates env (Eng.run env e m) 0 o t f (.err err))
    (hl : ¬ hasErrorLink I.defn t) (hg : I.defn.eh = none)
    (hm : (after env c e (m + 1)).done = false) (hd : (after env c e n).done = true) (hlim : (after env c e n).count ≠ c.limit) :
    (after env c e n).results = [⟨none, some err⟩] := by
  obtain ⟨k, h1, h2, h3, h4⟩ := ends_later h hm hd
  obtain ⟨I', J, hI', hJ, hst, hre, hct, _, hid, r1, r2, r3, r4⟩ := report_results (c := c) h2
  obtain ⟨⟨K, hK, hKs, hKe⟩, _⟩ := C13_unhandled_error (Eng.reachable_run h.reachable m) hI hev hl hg k
  rw [← Eng.run_add, show m + (k + 1) = m + 1 + k by omega, ← after_eng h1] at hK
  rw [hK] at hI'; cases hI'
  rw [h3] at hlim ⊢
  rw [hct] at hlim
  rw [r3 hKs hlim, hx, h4, hre, hKe]
  unfold Run.start; rw [hc]; rfl

-- non-trivial instance: the second task of a chain fails
example : (fun r : Run => (r.done, r.count)) (after failing { limit := 100 } (Eng.init failing "1" "u" chain []) 5) = (false, 2) ∧
    ((after failing { limit := 100 } (Eng.init failing "1" "u" chain []) 40).results.map (fun x => x.err.map Err.msg)) = [some "boom"] := by decide

/-- C13 fails: if the failure happens in the last step allowed, the caller receives another error. -/
theorem C13_negation_limit : (fun r : Run => (r.done, flowStatus r.eng 0, executed r.eng, r.results.map (fun x => x.err.map Err.msg)))
    (after failing limit2 (Eng.init failing "1" "u" chain []) 40) =
    (true, some .failed, 2, [some ("flow instance [1] failed due to max step count [2] reached. " ++
      "Increase step count by setting [FLOGO_MAX_STEP_COUNT] to higher value")]) := by decide

/-! ### C12 -/

/-- An explicit return is final. -/
theorem returned_forever {e : Eng} (hl : 0 < e.insts.length) {d : Option (AMap String Val)} {er : Option Err} {t : TaskRef}
    (h : EndedWith e 0 d er) (hst : e.stack = [.release t]) (k : Nat) : EndedWith (Eng.run env e k) 0 d er := by
  cases k with
  | zero => exact h
  | succ k =>
    rw [Eng.run_succ']
    have hs : e.step env = { e.modI e.cur (fun I => I.release t) with stack := [] } := by unfold Eng.step; rw [hst]
    have h1 : EndedWith (e.step env) 0 d er := by
      obtain ⟨J, hJ, h1, h2, h3⟩ := h
      rw [hs]
      by_cases hc : e.cur = 0
      · have hcm := Calm.release J t
        refine ⟨J.release t, ?_, hcm.status.trans h1, hcm.returnData.trans h2, hcm.returnError.trans h3⟩
        show (e.modI e.cur _).insts[0]? = _
        rw [hc]; exact Eng.modI_self hJ _
      · refine ⟨J, ?_, h1, h2, h3⟩
        show (e.modI e.cur _).insts[0]? = _
        rw [Eng.modI_ne hc]; exact hJ
    have hst1 : (e.step env).stack = [] := by rw [hs]
    have hf : flowStatus (e.step env) 0 = some .completed := by
      obtain ⟨J, hJ, h1, _⟩ := h1
      unfold flowStatus; rw [hJ, ← h1]; rfl
    rw [C10_finished_is_final (Run.insts_mono env hl) hst1 (Or.inl rfl) hf k]
    exact h1

/-- C12 for the caller: if an activity of a top-level flow calls `Return(d, er)` and its task finishes, the only result
the caller receives is exactly `d` and `er`, even at the step limit.

Partial: it is assumed that no link expression of the task fails (`C12_negation`) and that the data is not nil; if it is,
the declared outputs are returned instead (`C12_negation_nil`). -/
theorem C12_caller_partial {e f : Eng} {o : Nat} {t : TaskRef} {I : Inst} {td : TaskDef} {m n : Nat}
    (h : Started env e) (hc : c.returnId = false)
    (hst : Starts env (Eng.run env e m) 0 o t f (.res .done))
    (hI : (Eng.run env e m).insts[0]? = some I) (htd : (Eng.run env e m).taskDef? 0 t = some td) (hkind : td.kind = .basic)
    (hretry : td.retry = false) (hact : td.act.sub? = none) (hs : Steady env 0 o)
    (hm : (after env c e (m + 1)).done = false) (hd : (after env c e n).done = true) :
    ∃ s, CalledIn 0 o t (Eng.run env e m) s ∧ ∀ d er, (env.act s 0 o).ret = some (some d, er) → (env.act s 0 o).reply = none →
      ¬ exprFails (I.defn.toLinks t) (env.link f 0) → (after env c e n).results = [⟨some d, er⟩] := by
  obtain ⟨s, h1, h2⟩ := C12_return_partial (Eng.reachable_run h.reachable m) hst hI htd hkind hretry hact hs
  refine ⟨s, h1, fun d er hret hrep hex => ?_⟩
  obtain ⟨g1, g2, _⟩ := h2 (some d) er hret hrep hex
  obtain ⟨k, k1, k2, k3, k4⟩ := ends_later h hm hd
  obtain ⟨I', J, hI', hJ, hst', hre, _, _, _, r1, _⟩ := report_results (c := c) k2
  have hret := returned_forever (env := env) (Run.insts_mono env (Eng.insts_pos (Eng.reachable_run h.reachable m))) g1 g2 k
  rw [show (Eng.run env e m).step env = Eng.run env e (m + 1) from rfl, ← Eng.run_add, ← after_eng k1] at hret
  obtain ⟨K, hK, a1, a2, a3⟩ := hret
  rw [hK] at hI'; cases hI'
  obtain ⟨b1, b2⟩ := r1 a1
  rw [k3, b2, k4, b1, hre, a3]
  unfold Inst.fixReturnData
  rw [a2]
  unfold Run.start; rw [hc]; simp [a2]

-- non-trivial instance: R returns
example : ((after (returnEnv none (.ok true)) { limit := 100 } (Eng.init (returnEnv none (.ok true)) "1" "u" (returning .dependency) []) 40).results.map
    (fun x => x.data.bind (fun m => (AMap.get? m "x").bind number?))) = [some 1] := by decide

/-- C12 fails for a nil result: if the flow declares outputs, the caller receives these instead of nil. -/
theorem C12_negation_nil :
    ((after (tableEnv (fun _ => { ret := some (none, none) }) (fun _ => .ok true)) { limit := 100 }
      (Eng.init (tableEnv (fun _ => { ret := some (none, none) }) (fun _ => .ok true)) "1" "u"
        { name := "f", main := ⟨[tk "A"], []⟩, hasOutputs := true, outputs := [("x", .int 3)] } []) 40).results.map
      (fun x => x.data.bind (fun m => (AMap.get? m "x").bind number?))) = [some 3] := by decide

/-! ### C28 -/

/-- C28 for flows that declare no outputs: the whole run is the same whoever observes it.

Partial: for flows with declared outputs the property is false (`C28_negation_recorder`, `C28_negation_listener`). -/
theorem C28_no_outputs_partial (ob : Observers) (id uri : String) (d : Def) (ins : AMap String Val) (hd : d.hasOutputs = false) (n : Nat) :
    after env c (Run.startEng env ob id uri d ins) n = after env c (Eng.init env id uri d ins) n := by
  have hfix : ∀ (e : Eng), (∀ I : Inst, e.insts[0]? = some I → I.defn.hasOutputs = false) → e.modI 0 Inst.fixReturnData = e := by
    intro e h
    have : e.modI 0 Inst.fixReturnData = e.modI 0 (fun I => I) := by
      unfold Eng.modI
      congr 1
      apply List.ext_getElem?
      intro j
      rw [List.getElem?_modify, List.getElem?_modify]
      by_cases hj : 0 = j
      · subst hj
        cases hI : e.insts[0]? with
        | none => rfl
        | some I =>
          have h1 : I.fixReturnData = I := by
            unfold Inst.fixReturnData
            split
            · rfl
            · rw [if_neg (by rw [h I hI]; simp)]
          simp [h1]
      · simp [hj]
    rw [this, Eng.modI_id]
  have h0 : (Eng.new id uri d).modI 0 Inst.fixReturnData = Eng.new id uri d :=
    hfix _ (fun I h => by cases h; exact hd)
  have h1 : (Eng.startInstance env (Eng.new id uri d) 0 ins).modI 0 Inst.fixReturnData = Eng.startInstance env (Eng.new id uri d) 0 ins := by
    apply hfix
    intro I hI
    obtain ⟨J, hJ, hcm⟩ := Eng.startInstance_calm (env := env) (Eng.new id uri d) 0 ins (I := { defn := d, uri := uri }) rfl
    rw [hJ] at hI; cases hI
    rw [hcm.defn]; exact hd
  have : Run.startEng env ob id uri d ins = Eng.init env id uri d ins := by
    unfold Run.startEng Eng.init
    dsimp only
    rw [h0]
    simp only [ite_self]
    rw [h1]
    simp only [ite_self]
  rw [this]

-- non-trivial instance: a chain without declared outputs
example : chain.hasOutputs = false := rfl

/-- A flow with the declared output x, whose task A sets x to 1. -/
def setsX : Def := { name := "f", main := ⟨[tk "A"], []⟩, hasOutputs := true, outputs := [("x", .null)] }
def setsXEnv : Env := tableEnv (fun _ => { sets := [("x", .int 1)] }) (fun _ => .ok true)
def resultX (ob : Observers) : List (Option Int) :=
  (after setsXEnv { limit := 100 } (Run.startEng setsXEnv ob "1" "u" setsX []) 40).results.map
    (fun x => x.data.bind (fun m => (AMap.get? m "x").bind number?))

/-- C28 fails: with a state recorder the result of the flow lacks the value computed by the flow. -/
theorem C28_negation_recorder : resultX {} = [some 1] ∧ resultX { recorder := true } = [none] := by decide

/-- C28 fails: the same holds for a listener for flow events. -/
theorem C28_negation_listener : resultX {} = [some 1] ∧ resultX { listener := true } = [none] := by decide

end Flow
