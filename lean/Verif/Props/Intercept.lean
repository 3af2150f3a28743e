import Verif.Proofs.Intercept
import Verif.Proofs.Ends
import Verif.Props.Mock
import Verif.Spec.Run
import Verif.Model.Run

/-
C114: an interceptor affects only the task it is meant for.
-/

namespace Flow
open Spec

variable {env : Env} {g : String → Option TaskIcp}

namespace Spec

/-- The flow has a task with this id, in its main part or in its error handler. -/
def HasTask (f : Def) (a : TaskId) : Prop := ∃ eh, ∃ td ∈ (f.graph eh).tasks, td.id = a

/-- The flow that is run, or one that can be called. -/
def InUse (env : Env) (d f : Def) : Prop := f = d ∨ ∃ u, env.defs u = .ok (some f)

/-- Every key but `k` has the same interceptor. -/
def OnlyAt (env : Env) (g : String → Option TaskIcp) (k : String) : Prop := ∀ k', k' ≠ k → g k' = env.icp k'

/-- Some pending task has the key `k`: its id, or the name of its flow followed by its id. -/
def KeyHit (e : Eng) (k : String) : Prop :=
  ∃ w ∈ e.queue, ∃ (I : Inst) (ob : Obj), e.insts[w.inst]? = some I ∧ I.objs[w.obj]? = some ob ∧
    (ob.task.id = k ∨ I.defn.name ++ "-" ++ ob.task.id = k)

/-- Task `a` of a flow of this name is pending. -/
def TaskHit (e : Eng) (f : String) (a : TaskId) : Prop :=
  ∃ w ∈ e.queue, ∃ (I : Inst) (ob : Obj), e.insts[w.inst]? = some I ∧ I.objs[w.obj]? = some ob ∧ I.defn.name = f ∧ ob.task.id = a

end Spec

/-! ### Keys -/

theorem icpKey_toList (f a : String) : (f ++ "-" ++ a).toList = f.toList ++ '-' :: a.toList := by
  rw [String.toList_append, String.toList_append, List.append_assoc]
  rfl

theorem split_dash : ∀ {l l' r r' : List Char}, '-' ∉ l → '-' ∉ l' → l ++ '-' :: r = l' ++ '-' :: r' → l = l' ∧ r = r'
  | [], [], _, _, _, _, h => ⟨rfl, by injection h⟩
  | [], _ :: _, _, _, _, h2, h => by
    injection h with h3 _
    exact absurd (h3 ▸ List.mem_cons_self) h2
  | _ :: _, [], _, _, h1, _, h => by
    injection h with h3 _
    exact absurd (h3 ▸ List.mem_cons_self) h1
  | _ :: _, _ :: _, _, _, h1, h2, h => by
    injection h with h3 h4
    have := split_dash (fun hm => h1 (List.mem_cons_of_mem _ hm)) (fun hm => h2 (List.mem_cons_of_mem _ hm)) h4
    exact ⟨by rw [h3, this.1], this.2⟩

/-- **C114** Within one flow different tasks have different keys. -/
theorem C114_key_same_flow {f : String} {a b : TaskId} (h : f ++ "-" ++ a = f ++ "-" ++ b) : a = b := by
  have h := congrArg String.toList h
  rw [icpKey_toList, icpKey_toList] at h
  have := List.append_cancel_left h
  injection this with _ h2
  exact String.toList_inj.1 h2

/-- **C114** If names of flows contain no hyphen, the tasks of all flows have different keys. -/
theorem C114_key {f f' : String} {a b : TaskId} (hf : '-' ∉ f.toList) (hf' : '-' ∉ f'.toList) (h : f ++ "-" ++ a = f' ++ "-" ++ b) :
    f = f' ∧ a = b := by
  have h := congrArg String.toList h
  rw [icpKey_toList, icpKey_toList] at h
  have := split_dash hf hf' h
  exact ⟨String.toList_inj.1 this.1, String.toList_inj.1 this.2⟩

-- non-trivial instance, and the need for the hypothesis
example : '-' ∉ "f".toList ∧ ("f" ++ "-" ++ "x-A" = "f-x" ++ "-" ++ "A") := by decide

/-! ### Runs -/

/-- **C114** The evaluation of a task is the same whatever the interceptors of all other tasks are. -/
theorem C114_evaluation {e e' : Eng} {i o : Nat} {t : TaskRef} {r : Eng.EvalOut} (h : Evaluates env e i o t e' r)
    {I : Inst} (hI : e.insts[i]? = some I) (h1 : g t.id = env.icp t.id)
    (h2 : g (I.defn.name ++ "-" ++ t.id) = env.icp (I.defn.name ++ "-" ++ t.id)) :
    Evaluates { env with icp := g } e i o t e' r := by
  obtain ⟨⟨w, hn, hi, ho, hout⟩, ht⟩ := h
  refine ⟨⟨w, hn, hi, ho, ?_⟩, ht⟩
  show outcome (env.with g) (afterPop env e w) i o = _
  rw [← hout]
  obtain ⟨ob, hob, hobt⟩ : ∃ ob, I.objs[o]? = some ob ∧ ob.task = t := by
    have h3 : e.obj? i o = I.objs[o]? := Eng.obj?_eq hI
    rw [h3] at ht
    cases h4 : I.objs[o]? with
    | none => rw [h4] at ht; cases ht
    | some ob => rw [h4] at ht; cases ht; exact ⟨ob, rfl, rfl⟩
  have hI' : (afterPop env e w).insts[i]? = some I := hI
  have hs : Eng.Stands i o t I.defn (afterPop env e w) := ⟨I, ob, hI', hob, hobt, rfl⟩
  have hk : SameFor env g I.defn.name t.id := ⟨h1, h2⟩
  unfold outcome
  rw [Eng.obj?_eq hI', hob]
  dsimp only
  split
  · rfl
  · rw [Eng.postKind_with hk hs, Eng.evalKind_with hk hs]

/-- **C114** As long as no task with the key of an interceptor is pending, a run is the same as without this interceptor. -/
theorem C114_until {k : String} (hg : OnlyAt env g k) (id uri : String) (d : Def) (ins : AMap String Val) (n : Nat)
    (hn : ∀ m < n, ¬ KeyHit (Eng.run env (Eng.init env id uri d ins) m) k) :
    Eng.run { env with icp := g } (Eng.init { env with icp := g } id uri d ins) n = Eng.run env (Eng.init env id uri d ins) n := by
  show Eng.run (env.with g) (Eng.init (env.with g) id uri d ins) n = _
  rw [show Eng.init (env.with g) id uri d ins = Eng.init env id uri d ins from Eng.startInstance_with _ _ _]
  refine Eng.run_with n fun m hm w hw I ob td hI hob _ => ⟨hg _ fun h => ?_, hg _ fun h => ?_⟩
  · exact hn m hm ⟨w, hw, I, ob, hI, hob, .inl h⟩
  · exact hn m hm ⟨w, hw, I, ob, hI, hob, .inr h⟩

/-- The definitions of the instances of a run. -/
theorem inUse_run (env : Env) (id uri : String) (d : Def) (ins : AMap String Val) (n : Nat) :
    Eng.All (fun I => InUse env d I.defn) (Eng.run env (Eng.init env id uri d ins) n) := by
  induction n with
  | zero => exact fun j J hJ => .inl (Ends.init_inst id uri d ins hJ).1
  | succ n ih =>
    exact Ends.ops_all (P := InUse env d) (fun u f h => .inr ⟨u, h⟩) (Eng.Ops.step (Eng.engOK_run id uri d ins n).length_pos) ih

/-- **C114** An interceptor whose key is that of no task of the flows in use changes nothing. -/
theorem C114_unused {k : String} (hg : OnlyAt env g k) (id uri : String) (d : Def) (ins : AMap String Val)
    (hk : ∀ f, InUse env d f → ∀ a, HasTask f a → a ≠ k ∧ f.name ++ "-" ++ a ≠ k) (n : Nat) :
    Eng.run { env with icp := g } (Eng.init { env with icp := g } id uri d ins) n = Eng.run env (Eng.init env id uri d ins) n := by
  show Eng.run (env.with g) (Eng.init (env.with g) id uri d ins) n = _
  rw [show Eng.init (env.with g) id uri d ins = Eng.init env id uri d ins from Eng.startInstance_with _ _ _]
  refine Eng.run_with n fun m hm w hw I ob td hI hob htd => ?_
  have ht : HasTask I.defn ob.task.id :=
    ⟨ob.task.eh, td, List.mem_of_find?_eq_some htd, by simpa using List.find?_some htd⟩
  have := hk _ (inUse_run env id uri d ins m w.inst I hI) _ ht
  exact ⟨hg _ this.1, hg _ this.2⟩

theorem keyFree_same {k : String} (hg : OnlyAt env g k) {e : Eng} (h : ¬ KeyHit e k) : Eng.SameAll env g e :=
  fun w hw I ob _ hI hob _ => ⟨hg _ fun hk => h ⟨w, hw, I, ob, hI, hob, .inl hk⟩, hg _ fun hk => h ⟨w, hw, I, ob, hI, hob, .inr hk⟩⟩

/-- **C114** The whole run that the caller sees, from a new or from a saved state: results, step count and end are the same as without
the interceptor as long as no task with its key is pending. -/
theorem C114_results {k : String} (hg : OnlyAt env g k) (c : RunCfg) (r : Run) (n : Nat)
    (hn : ∀ m < n, ¬ KeyHit (Run.run env c r m).eng k) :
    Run.run { env with icp := g } c r n = Run.run env c r n := by
  induction n with
  | zero => rfl
  | succ n ih =>
    show Run.step (env.with g) c (Run.run (env.with g) c r n) = Run.step env c (Run.run env c r n)
    rw [show Run.run (env.with g) c r n = Run.run env c r n from ih (fun m hm => hn m (by omega))]
    have h := Eng.step_with (keyFree_same hg (hn n (by omega)))
    unfold Run.step
    rw [h]

/-- **C114** No interceptor has an effect on the start of a flow. -/
theorem C114_start (g : String → Option TaskIcp) (ob : Observers) (id uri : String) (d : Def) (ins : AMap String Val) :
    Run.startEng { env with icp := g } ob id uri d ins = Run.startEng env ob id uri d ins := by
  show Run.startEng (env.with g) ob id uri d ins = _
  unfold Run.startEng
  dsimp only
  rw [Eng.startInstance_with]

/-- **C114** The interceptor for outputs, mock and assertions of task `a` of flow `f` affects no run before task `a` of a flow
named `f` is pending, provided that names of flows contain no hyphen and no task has the key as its id. Missing for the full
statement: names with hyphens and inputs or skipping, for which it is false (`C114_negation_name`, `C114_negation_id`,
`C114_negation_handler`). -/
theorem C114_only_partial {f : String} {a : TaskId} (hg : OnlyAt env g (f ++ "-" ++ a)) (id uri : String) (d : Def) (ins : AMap String Val)
    (hf : '-' ∉ f.toList) (hd : ∀ f', InUse env d f' → '-' ∉ f'.name.toList ∧ ¬ HasTask f' (f ++ "-" ++ a)) (n : Nat)
    (hn : ∀ m < n, ¬ TaskHit (Eng.run env (Eng.init env id uri d ins) m) f a) :
    Eng.run { env with icp := g } (Eng.init { env with icp := g } id uri d ins) n = Eng.run env (Eng.init env id uri d ins) n := by
  show Eng.run (env.with g) (Eng.init (env.with g) id uri d ins) n = _
  rw [show Eng.init (env.with g) id uri d ins = Eng.init env id uri d ins from Eng.startInstance_with _ _ _]
  refine Eng.run_with n fun m hm w hw I ob td hI hob htd => ?_
  have hu := hd _ (inUse_run env id uri d ins m w.inst I hI)
  refine ⟨hg _ fun h => ?_, hg _ fun h => ?_⟩
  · exact hu.2 ⟨ob.task.eh, td, List.mem_of_find?_eq_some htd, by rw [← h]; simpa using List.find?_some htd⟩
  · obtain ⟨h1, h2⟩ := C114_key hu.1 hf h
    exact hn m hm ⟨w, hw, I, ob, hI, hob, h1, h2⟩

/-! ### Cases and witnesses -/

/-- The calls made in an instance, oldest first. -/
def calledRefs (e : Eng) (i : Nat) : List TaskRef :=
  ((e.insts[i]?).map (fun I => I.trace.reverse.filterMap (fun | .evalAct _ t => some t | _ => none))).getD []

def icpSub : Def := { name := "g", main := ⟨[tk "A", tk "B"], deps 0 [("A", "B")]⟩ }
def icpFlow : Def := { name := "f", main := ⟨[tk "A", { tk "S" with act := .subflow "g" }], deps 0 [("A", "S")]⟩ }
/-- Flow `f` calls flow `g`; both have a task `A`. -/
def icpEnv (m : List (String × TaskIcp)) : Env := { mockEnv m with defs := fun u => if u = "g" then .ok (some icpSub) else .ok none }
def icpRun (m : List (String × TaskIcp)) (n : Nat) : Eng := Eng.run (icpEnv m) (Eng.init (icpEnv m) "1" "u" icpFlow []) n

theorem icpEnv_onlyAt (k : String) (c : TaskIcp) : OnlyAt (icpEnv []) (icpEnv [(k, c)]).icp k := by
  intro k' h
  show AMap.get? [(k, c)] k' = none
  simp [AMap.get?, Ne.symm h]

theorem icpEnv_inUse {f : Def} (h : InUse (icpEnv []) icpFlow f) : f = icpFlow ∨ f = icpSub := by
  rcases h with h | ⟨u, h⟩
  · exact .inl h
  · change (if u = "g" then Except.ok (some icpSub) else Except.ok none : Except Err (Option Def)) = .ok (some f) at h
    split at h
    · injection h with h; injection h with h; exact .inr h.symm
    · cases h

-- non-trivial instance of `C114_only_partial`: a mock for `A` of the called flow; both runs agree while `f` executes its own `A`,
-- and later it is the `A` of the called flow that is not called
example : OnlyAt (icpEnv []) (icpEnv [("g-A", { skipExecution := true })]).icp ("g" ++ "-" ++ "A") ∧
    calledRefs (icpRun [] 3) 0 = [⟨false, "A"⟩] ∧
    calledRefs (icpRun [("g-A", { skipExecution := true })] 40) 0 = [⟨false, "A"⟩, ⟨false, "S"⟩] ∧
    calledRefs (icpRun [("g-A", { skipExecution := true })] 40) 1 = [⟨false, "B"⟩] ∧
    calledRefs (icpRun [] 40) 1 = [⟨false, "A"⟩, ⟨false, "B"⟩] :=
  ⟨icpEnv_onlyAt _ _, by decide +kernel, by decide +kernel, by decide +kernel, by decide +kernel⟩

-- the hypotheses of `C114_only_partial` and of `C114_until` hold for it up to the call of the flow
example : Eng.run (icpEnv [("g-A", { skipExecution := true })]) (Eng.init (icpEnv [("g-A", { skipExecution := true })]) "1" "u" icpFlow []) 3 =
    icpRun [] 3 := by
  refine C114_only_partial (env := icpEnv []) (f := "g") (a := "A") (icpEnv_onlyAt _ _) "1" "u" icpFlow [] (by decide) ?_ 3 ?_
  · intro f hf
    rcases icpEnv_inUse hf with rfl | rfl <;> refine ⟨by decide, fun ⟨eh, td, hm, ha⟩ => ?_⟩ <;> revert td <;> cases eh <;> decide +kernel
  · rintro m hm ⟨w, _, I, ob, hI, _, hf, _⟩
    have h : ∀ m < 3, ∀ I ∈ (icpRun [] m).insts, I.defn.name ≠ "g" := by decide +kernel
    exact h m hm I (List.mem_of_getElem? hI) hf

example : ∀ m < 3, ¬ KeyHit (icpRun [] m) "g-A" := by
  rintro m hm ⟨w, _, I, ob, hI, ho, h⟩
  have h1 : ∀ m < 3, ∀ I ∈ (icpRun [] m).insts, ∀ ob ∈ I.objs, ob.task.id ≠ "g-A" ∧ I.defn.name ++ "-" ++ ob.task.id ≠ "g-A" := by decide +kernel
  have h2 := h1 m hm I (List.mem_of_getElem? hI) ob (List.mem_of_getElem? ho)
  exact h.elim h2.1 h2.2

-- non-trivial instance of `C114_results`: a whole run with a call of flow `g`, for the key of a task that is never entered
example : (Run.run (icpEnv []) { limit := 100 } (Run.start { limit := 100 } (icpRun [] 0)) 30).results.length = 1 ∧
    ∀ m < 30, ¬ KeyHit (Run.run (icpEnv []) { limit := 100 } (Run.start { limit := 100 } (icpRun [] 0)) m).eng "g-C" := by
  refine ⟨by decide +kernel, ?_⟩
  rintro m hm ⟨w, _, I, ob, hI, ho, h⟩
  have h1 : ∀ m < 30, ∀ I ∈ (Run.run (icpEnv []) { limit := 100 } (Run.start { limit := 100 } (icpRun [] 0)) m).eng.insts, ∀ ob ∈ I.objs,
    ob.task.id ≠ "g-C" ∧ I.defn.name ++ "-" ++ ob.task.id ≠ "g-C" := by decide +kernel
  have h2 := h1 m hm I (List.mem_of_getElem? hI) ob (List.mem_of_getElem? ho)
  exact h.elim h2.1 h2.2

-- non-trivial instance of `C114_evaluation`: the evaluation of `A` of flow `f`, whatever is mocked in flow `g`
example : (∃ e' r, Evaluates (icpEnv []) (icpRun [] 0) 0 0 ⟨false, "A"⟩ e' r) ∧
    (icpEnv [("g-A", { skipExecution := true })]).icp "A" = (icpEnv []).icp "A" ∧
    (icpEnv [("g-A", { skipExecution := true })]).icp ("f" ++ "-" ++ "A") = (icpEnv []).icp ("f" ++ "-" ++ "A") ∧
    (icpEnv [("g-A", { skipExecution := true })]).icp "g-A" ≠ (icpEnv []).icp "g-A" :=
  ⟨⟨_, _, ⟨_, rfl, rfl, rfl, rfl⟩, rfl⟩, icpEnv_onlyAt _ _ _ (by decide), icpEnv_onlyAt _ _ _ (by decide), nofun⟩

-- non-trivial instance of `C114_unused`: a mock for a task `C` that no flow has
example : OnlyAt (icpEnv []) (icpEnv [("g-C", { skipExecution := true })]).icp "g-C" ∧
    ∀ f, InUse (icpEnv []) icpFlow f → ∀ a, HasTask f a → a ≠ "g-C" ∧ f.name ++ "-" ++ a ≠ "g-C" := by
  refine ⟨icpEnv_onlyAt _ _, fun f hf a ⟨eh, td, hm, ha⟩ => ?_⟩
  subst ha
  rcases icpEnv_inUse hf with rfl | rfl <;> cases eh
  · exact (by decide +kernel : ∀ td ∈ (icpFlow.graph false).tasks, td.id ≠ "g-C" ∧ icpFlow.name ++ "-" ++ td.id ≠ "g-C") td hm
  · exact (by decide +kernel : ∀ td ∈ (icpFlow.graph true).tasks, td.id ≠ "g-C" ∧ icpFlow.name ++ "-" ++ td.id ≠ "g-C") td hm
  · exact (by decide +kernel : ∀ td ∈ (icpSub.graph false).tasks, td.id ≠ "g-C" ∧ icpSub.name ++ "-" ++ td.id ≠ "g-C") td hm
  · exact (by decide +kernel : ∀ td ∈ (icpSub.graph true).tasks, td.id ≠ "g-C" ∧ icpSub.name ++ "-" ++ td.id ≠ "g-C") td hm

/-- The only flow of the run: a flow `f` with a task `x-A`. -/
def dashFlow : Def := { name := "f", main := ⟨[tk "x-A"], []⟩ }
def dashRun (m : List (String × TaskIcp)) : Eng := Eng.run (mockEnv m) (Eng.init (mockEnv m) "1" "u" dashFlow []) 20

/-- **C114** disagreement: names of flows may contain hyphens; a mock for task `A` of a flow `f-x`, which is not even run, replaces
the activity of task `x-A` of flow `f`. -/
theorem C114_negation_name : ∃ c : TaskIcp, calledRefs (dashRun []) 0 = [⟨false, "x-A"⟩] ∧
    calledRefs (dashRun [("f-x" ++ "-" ++ "A", c)]) 0 = [] ∧ flowStatus (dashRun [("f-x" ++ "-" ++ "A", c)]) 0 = some .completed :=
  ⟨{ skipExecution := true }, by decide +kernel, by decide +kernel, by decide +kernel⟩

/-- **C114** disagreement: whether a task is skipped is looked up by its id alone; skipping `A` skips the tasks `A` of all flows, and
naming the flow has no effect. -/
theorem C114_negation_id : ∃ c : TaskIcp, calledRefs (icpRun [] 40) 1 = [⟨false, "A"⟩, ⟨false, "B"⟩] ∧
    calledRefs (icpRun [("A", c)] 40) 0 = [⟨false, "S"⟩] ∧ calledRefs (icpRun [("A", c)] 40) 1 = [⟨false, "B"⟩] ∧
    calledRefs (icpRun [("f" ++ "-" ++ "A", c)] 40) 0 = [⟨false, "A"⟩, ⟨false, "S"⟩] :=
  ⟨{ skip := true }, by decide +kernel, by decide +kernel, by decide +kernel, by decide +kernel⟩

/-- A flow with the task `A` in its main part and another one in its error handler. -/
def twoAs : Def := { name := "f", main := ⟨[tk "A", tk "B"], deps 0 [("A", "B")]⟩, eh := some ⟨[tk "A"], []⟩ }
def twoEnv (m : List (String × TaskIcp)) : Env :=
  { tableEnv (fun t => if t = "B" then { res := .err (.plain "x") } else {}) (fun _ => .ok true) with icp := fun k => AMap.get? m k }
def twoRun (m : List (String × TaskIcp)) : Eng := Eng.run (twoEnv m) (Eng.init (twoEnv m) "1" "u" twoAs []) 40

/-- **C114** disagreement: a task of the error handler with the id of a task of the main part shares its interceptor. -/
theorem C114_negation_handler : ∃ c : TaskIcp, calledRefs (twoRun []) 0 = [⟨false, "A"⟩, ⟨false, "B"⟩, ⟨true, "A"⟩] ∧
    calledRefs (twoRun [("f" ++ "-" ++ "A", c)]) 0 = [⟨false, "B"⟩] :=
  ⟨{ skipExecution := true }, by decide +kernel, by decide +kernel⟩

end Flow
