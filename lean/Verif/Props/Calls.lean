import Verif.Proofs.GraphOnce
import Verif.Props.Graph
import Verif.Props.Events

/-
Executions of flows that call other flows.
-/

namespace Flow
open Spec GraphM

/-! ### C08 -/

/-- C08 for flows that call flows, that may call flows in turn: whatever the order in which work items are taken, every
execution comes to rest: after more steps than `graphSteps` says, not counting the rounds of loops, nothing is left to do.
The number depends on the definitions only.

Partial: see `C06_executed_partial`; no flow instance had an unhandled error or an explicit return, no subflow reported its end
twice, and tasks that call a flow do not repeat the call after an error. -/
theorem C08_rests_calls_partial {env : Env} (hset : SettingsOk env) {depth : String → Nat} (hn : Nested env depth) {d : Def} (hc : Calls d.main)
    {k : Nat} (hk : ∀ t ∈ d.main.tasks, ∀ u, t.act = .subflow u → depth u < k) (id uri : String) (ins : AMap String Val) {n : Nat}
    (hs : graphSteps (flowSteps env k) d.main + loopRounds env (Eng.init env id uri d ins) n < n)
    (hsm : Smooth (Eng.run env (Eng.init env id uri d ins) n)) :
    (Eng.run env (Eng.init env id uri d ins) n).stack = [] ∧ next env (Eng.run env (Eng.init env id uri d ins) n) = none := by
  obtain ⟨_, _, h⟩ := tree_run hset hn ⟨hc, hk⟩ id uri ins n hsm
  rcases h with h | h
  · exact h
  · omega

/-- C08 for flows that call flows: if moreover no activity waits for something outside of the flow, then the flow and all flows
called in the course of its execution are completed, all their tasks are finished, and the work queue is empty.

Partial: see `C08_rests_calls_partial`. -/
theorem C08_finishes_calls_partial {env : Env} (hset : SettingsOk env) {depth : String → Nat} (hn : Nested env depth) {d : Def} (hc : Calls d.main)
    {k : Nat} (hk : ∀ t ∈ d.main.tasks, ∀ u, t.act = .subflow u → depth u < k) (id uri : String) (ins : AMap String Val) {n : Nat}
    (hs : graphSteps (flowSteps env k) d.main + loopRounds env (Eng.init env id uri d ins) n < n)
    (hsm : Smooth (Eng.run env (Eng.init env id uri d ins) n))
    (hw : ∀ I ∈ (Eng.run env (Eng.init env id uri d ins) n).insts, ∀ t ∈ I.defn.main.tasks, (∀ uri, t.act ≠ .subflow uri) → ¬ HasStatus I t.id .waiting) :
    (∀ I ∈ (Eng.run env (Eng.init env id uri d ins) n).insts, I.status = .completed ∧ ∀ t ∈ I.defn.main.tasks, Finished I t.id) ∧
      (Eng.run env (Eng.init env id uri d ins) n).queue = [] := by
  obtain ⟨h1, _, h⟩ := tree_run hset hn ⟨hc, hk⟩ id uri ins n hsm
  obtain ⟨h2, h3⟩ : (Eng.run env (Eng.init env id uri d ins) n).stack = [] ∧ next env (Eng.run env (Eng.init env id uri d ins) n) = none := by
    rcases h with h | h
    · exact h
    · omega
  exact tree_rest hset ⟨id, uri, d, ins, n, rfl⟩ (fun I hI => (h1 I hI).calls) hsm h2 h3 hw

/-! A flow that calls g, which calls h. -/

theorem oneTask_calls (t : TaskDef) (h : t.kind = .basic) (h' : t.retry = false) : Calls ⟨[t], []⟩ where
  covered := ⟨⟨by simp, by simp, (fun _ hl => nomatch hl), (fun _ hl => nomatch hl)⟩, ⟨fun _ => 0, (fun _ hl => nomatch hl)⟩, fun _ => .nil, fun x hx _ _ => by
    rw [List.mem_singleton.1 hx]; exact h⟩
  nonempty := by simp
  once := fun x hx _ _ => by rw [List.mem_singleton.1 hx]; exact h'

def nestedDepth (u : String) : Nat := if u = "g" then 1 else 0

theorem nestedSubs_nested : Nested nestedSubs nestedDepth where
  calls := fun u d hd => by
    simp only [nestedSubs] at hd
    split at hd
    · cases hd; exact oneTask_calls _ rfl rfl
    · split at hd
      · cases hd; exact oneTask_calls _ rfl rfl
      · cases hd
  down := fun u d hd t ht v hv => by
    simp only [nestedSubs] at hd
    split at hd
    · rename_i hu
      cases hd
      rw [List.mem_singleton.1 ht] at hv
      cases hv
      simp [nestedDepth, hu]
    · split at hd
      · cases hd
        rw [List.mem_singleton.1 ht] at hv
        cases hv
      · cases hd

/-- The run to its end. -/
def nestedEnd : Eng := Eng.run nestedSubs (Eng.init nestedSubs "1" "u" nestedFlow []) 21

theorem smooth_of {e : Eng} (h1 : ∀ J ∈ e.insts, J.handling = false ∧ J.force = false) (h2 : ∀ J ∈ e.insts, endings J ≤ 1) : Smooth e :=
  ⟨fun J hJ => h1 J hJ, fun _ J hJ _ _ => h2 J hJ⟩

-- non-trivial instance: three flow instances, 20 steps
example : SettingsOk nestedSubs ∧ Calls nestedFlow.main ∧ graphSteps (flowSteps nestedSubs 2) nestedFlow.main +
      loopRounds nestedSubs (Eng.init nestedSubs "1" "u" nestedFlow []) 21 < 21 ∧ Smooth nestedEnd ∧
    nestedEnd.insts.length = 3 ∧ ∀ I ∈ nestedEnd.insts, ∀ t ∈ I.defn.main.tasks, (∀ uri, t.act ≠ .subflow uri) → ¬ HasStatus I t.id .waiting := by
  refine ⟨fun _ _ _ => rfl, oneTask_calls _ rfl rfl, by decide, smooth_of (by decide) (by decide), by decide, ?_⟩
  have : ∀ I ∈ nestedEnd.insts, ∀ ob ∈ I.objs, ob.status ≠ .waiting := by decide
  rintro I hI t _ _ ⟨ob, h1, _, h3⟩
  exact this I hI ob h1 h3

/-- C08 for flows that call flows, without a condition on what the called flows report: if every called flow has one end task.

Partial: see `C06_executed_partial`; no flow instance had an unhandled error or an explicit return, and tasks that call a flow do
not repeat the call after an error. -/
theorem C08_finishes_one_end_partial {env : Env} (hset : SettingsOk env) {depth : String → Nat} (hn : Nested env depth) (h1 : OneEnd env) {d : Def}
    (hc : Calls d.main) {k : Nat} (hk : ∀ t ∈ d.main.tasks, ∀ u, t.act = .subflow u → depth u < k) (id uri : String) (ins : AMap String Val) {n : Nat}
    (hs : graphSteps (flowSteps env k) d.main + loopRounds env (Eng.init env id uri d ins) n < n)
    (hu : ∀ I ∈ (Eng.run env (Eng.init env id uri d ins) n).insts, Undisturbed I)
    (hw : ∀ I ∈ (Eng.run env (Eng.init env id uri d ins) n).insts, ∀ t ∈ I.defn.main.tasks, (∀ uri, t.act ≠ .subflow uri) → ¬ HasStatus I t.id .waiting) :
    (∀ I ∈ (Eng.run env (Eng.init env id uri d ins) n).insts, I.status = .completed ∧ ∀ t ∈ I.defn.main.tasks, Finished I t.id) ∧
      (Eng.run env (Eng.init env id uri d ins) n).queue = [] ∧ (Eng.run env (Eng.init env id uri d ins) n).stack = [] := by
  have hsm := smooth_run hset hc.covered (fun u f hf => ⟨(hn.calls u f hf).covered, h1 u f hf⟩) id uri ins n hu
  obtain ⟨h2, h3⟩ := C08_finishes_calls_partial hset hn hc hk id uri ins hs hsm hw
  exact ⟨h2, h3, (C08_rests_calls_partial hset hn hc hk id uri ins hs hsm).1⟩

-- non-trivial instance: the flows of `nestedSubs`
example : OneEnd nestedSubs ∧ ∀ I ∈ nestedEnd.insts, Undisturbed I := by
  refine ⟨fun u f hf => ?_, fun J hJ => ?_⟩
  · simp only [nestedSubs] at hf
    split at hf
    · cases hf; decide
    · split at hf
      · cases hf; decide
      · cases hf
  · have : ∀ J ∈ nestedEnd.insts, J.handling = false ∧ J.force = false := by decide
    exact this J hJ

/-! ### C56 -/

theorem ends_news (l : List Post) : (flowNews l).countP (fun x => decide (x.1 = "Completed" ∨ x.1 = "Failed")) = l.countP isEnd := by
  induction l with
  | nil => rfl
  | cons p l ih =>
    cases p with
    | task => exact ih
    | flow s err =>
      show ((s.eventName, err) :: flowNews l).countP _ = _
      rw [List.countP_cons, List.countP_cons, ih]
      cases s <;> rfl

/-- C56, second part: the end of a flow is announced at most as often as the flow has end tasks, that is, tasks without outgoing
links; in particular, a flow with one end task is announced Completed at most once.

Partial: as long as no flow instance had an unhandled error or an explicit return; covered flows; and called flows have one end task.
With two end tasks the end may be announced twice (`C56_negation`). -/
theorem C56_at_most_once_partial {env : Env} (hset : SettingsOk env) {d : Def} (hd : Covered d.main)
    (hdefs : ∀ u f, env.defs u = .ok (some f) → Covered f.main) (h1 : OneEnd env) (id uri : String) (ins : AMap String Val) (n : Nat)
    (hu : ∀ J ∈ (Eng.run env (Eng.init env id uri d ins) n).insts, Undisturbed J) {i : Nat} {I : Inst}
    (hI : (Eng.run env (Eng.init env id uri d ins) n).insts[i]? = some I) :
    ∃ rest, flowNewsOf (Eng.run env (Eng.init env id uri d ins) n) i = rest ++ [("Started", none)] ∧ rest.length ≤ (endTasks I.defn.main).length := by
  obtain ⟨rest, h2, h3⟩ := C56_started_first_partial ⟨id, uri, d, ins, n, rfl⟩ hI
  refine ⟨rest, h2, ?_⟩
  have h4 := (ends_run hset hd (fun u f hf => ⟨hdefs u f hf, h1 u f hf⟩) id uri ins n hu I (List.mem_of_getElem? hI)).bound
  unfold endings at h4
  rw [← ends_news] at h4
  unfold flowNewsOf at h2
  rw [hI] at h2
  dsimp only at h2
  rw [h2, List.countP_append, List.countP_eq_length.2 fun x hx => decide_eq_true (h3 x hx)] at h4
  omega

/-- The latest event of a flow instance tells its status. -/
theorem latest_news {env : Env} {e : Eng} (hr : Reachable env e) {i : Nat} {I : Inst} (hI : e.insts[i]? = some I) :
    ∃ x rest, flowNewsOf e i = (I.status.eventName, x) :: rest ∧ (I.status = .completed → x = none) := by
  have hst : Eng.Stable (fun I => ∃ x rest, flowNews I.posted = (I.status.eventName, x) :: rest ∧ (I.status = .completed → x = none)) := by
    have push : ∀ {I : Inst} (s : FlowStatus), ∃ x rest, flowNews (I.setFlowStatus s).posted = ((I.setFlowStatus s).status.eventName, x) :: rest ∧
        ((I.setFlowStatus s).status = .completed → x = none) := by
      intro I s
      refine ⟨if s = .failed then I.returnError else none, flowNews I.posted, rfl, fun hs => ?_⟩
      have hs : s = .completed := hs
      rw [hs]; rfl
    constructor
    · intro I I' hc h; rw [flowNews_calm hc.flows, hc.status]; exact h
    · intro o I I' hc h; rw [hc.posted, hc.status]; exact h
    · intro d uri k h a; exact ⟨none, [], rfl, fun _ => rfl⟩
    · intro I _; exact push _
    · intro I _; exact push _
    · intro I h _ _; exact h
    · intro I _ _ _; exact push _
    · intro I err h _; exact h
  unfold flowNewsOf
  rw [hI]
  exact hst.reachable hr i I hI

/-- C56: when everything is done, the end of every flow with one end task was announced exactly once, by Completed.

Partial: see `C08_finishes_one_end_partial`. -/
theorem C56_once_partial {env : Env} (hset : SettingsOk env) {depth : String → Nat} (hn : Nested env depth) (h1 : OneEnd env) {d : Def}
    (hc : Calls d.main) {k : Nat} (hk : ∀ t ∈ d.main.tasks, ∀ u, t.act = .subflow u → depth u < k) (id uri : String) (ins : AMap String Val) {n : Nat}
    (hs : graphSteps (flowSteps env k) d.main + loopRounds env (Eng.init env id uri d ins) n < n)
    (hu : ∀ I ∈ (Eng.run env (Eng.init env id uri d ins) n).insts, Undisturbed I)
    (hw : ∀ I ∈ (Eng.run env (Eng.init env id uri d ins) n).insts, ∀ t ∈ I.defn.main.tasks, (∀ uri, t.act ≠ .subflow uri) → ¬ HasStatus I t.id .waiting)
    {i : Nat} {I : Inst} (hI : (Eng.run env (Eng.init env id uri d ins) n).insts[i]? = some I) (he : (endTasks I.defn.main).length ≤ 1) :
    flowNewsOf (Eng.run env (Eng.init env id uri d ins) n) i = [("Completed", none), ("Started", none)] := by
  have hd := fun u f hf => (hn.calls u f hf).covered
  obtain ⟨rest, h2, h3⟩ := C56_at_most_once_partial hset hc.covered hd h1 id uri ins n hu hI
  have hst := ((C08_finishes_one_end_partial hset hn h1 hc hk id uri ins hs hu hw).1 I (List.mem_of_getElem? hI)).1
  obtain ⟨x, more, h4, h5⟩ := latest_news ⟨id, uri, d, ins, n, rfl⟩ hI
  rw [h5 hst, hst] at h4
  rw [h2] at h4 ⊢
  match rest, h4 with
  | [], h4 => exact absurd (congrArg (fun l => l.map Prod.fst) h4) (by simp [FlowStatus.eventName])
  | [y], h4 =>
    rw [List.singleton_append, List.cons.injEq] at h4
    rw [h4.1]; rfl
  | _ :: _ :: _, _ => simp only [List.length_cons] at h3; omega

-- non-trivial instance: the three flow instances of `nestedEnd` have one end task each
example : nestedEnd.insts.map (fun I => (endTasks I.defn.main).length) = [1, 1, 1] ∧
    flowNewsOf nestedEnd 2 = [("Completed", none), ("Started", none)] := ⟨by decide, rfl⟩

end Flow
