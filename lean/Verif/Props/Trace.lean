import Std.Data.String.ToNat
import Verif.Proofs.Step
import Verif.Spec.Plain

/-!
Property theorems that hold in every reachable state, for every definition and every environment: C01, C02, C10, C14,
C26, C47.
-/

namespace Flow
open Spec

/-- Every event in the trace of every instance of a reachable state is in order. -/
theorem traces_in_order {env : Env} {e : Eng} (hr : Reachable env e) {i : Nat} {I : Inst} (hI : e.insts[i]? = some I)
    {post pre : List Ev} {ev : Ev} (hs : I.trace = post ++ ev :: pre) : EvOK I.defn ev pre :=
  ((Eng.engOK_reachable hr).ok i I hI).trace.at hs

/-! ### C01 -/

/-- C01: whenever the activity of a task has been evaluated, the task had become ready before, and at that moment all
its incoming links had been decided and, unless it has none, at least one was followed. -/
theorem C01_evaluated_only_when_ready {env : Env} {e : Eng} (hr : Reachable env e) {i : Nat} {I : Inst}
    (hI : e.insts[i]? = some I) {post pre : List Ev} {o : Nat} {t : TaskRef} (hs : I.trace = post ++ .evalAct o t :: pre) :
    ∃ mid pre', pre = mid ++ .taskStatus o t .ready :: pre' ∧
      AllDecided pre' (I.defn.fromLinks t) ∧ (I.defn.fromLinks t = [] ∨ SomeFollowed pre' (I.defn.fromLinks t)) := by
  have h1 : Ev.taskStatus o t .ready ∈ pre := traces_in_order hr hI hs
  obtain ⟨mid, pre', h2⟩ := List.append_of_mem h1
  refine ⟨mid, pre', h2, ?_⟩
  have h3 : I.trace = (post ++ .evalAct o t :: mid) ++ .taskStatus o t .ready :: pre' := by
    rw [hs, h2]; simp
  exact (traces_in_order hr hI h3).1

/-- C01: a link counts as decided only after the task it leaves has been done, has failed or was skipped, and a followed
link only after its source succeeded or, for error links, failed. -/
theorem C01_decided_by_source {env : Env} {e : Eng} (hr : Reachable env e) {i : Nat} {I : Inst}
    (hI : e.insts[i]? = some I) {post pre : List Ev} {k : LinkId} {s : LinkStatus} (hs : I.trace = post ++ .linkStatus k s :: pre) :
    s ≠ .unset ∧ ∃ (t : TaskRef) (o : Nat) (l : LinkDef), l ∈ I.defn.toLinks t ∧ l.id = k ∧
      ((s = .true ∧ l.type ≠ .error ∧ .taskStatus o t .done ∈ pre) ∨
       (s = .true ∧ l.type = .error ∧ .taskStatus o t .failed ∈ pre) ∨
       (s = .false ∧ (.taskStatus o t .failed ∈ pre ∨ .taskStatus o t .done ∈ pre)) ∨
       (s = .skipped ∧ .taskStatus o t .skipped ∈ pre)) := by
  obtain ⟨t, o, l, h1, h2, h3⟩ := traces_in_order hr hI hs
  cases s with
  | unset => exact absurd h3 id
  | «false» => exact ⟨by simp, t, o, l, h1, h2, Or.inr (Or.inr (Or.inl ⟨rfl, h3⟩))⟩
  | «true» =>
    refine ⟨by simp, t, o, l, h1, h2, ?_⟩
    dsimp only at h3
    split at h3
    · rename_i ht; exact Or.inr (Or.inl ⟨rfl, ht, h3⟩)
    · rename_i ht; exact Or.inl ⟨rfl, ht, h3⟩
  | skipped => exact ⟨by simp, t, o, l, h1, h2, Or.inr (Or.inr (Or.inr ⟨rfl, h3⟩))⟩

/-- A diamond: A → B, A → C, B → D, C → D. -/
def diamond : Def :=
  { name := "f", main := ⟨[tk "A", tk "B", tk "C", tk "D"], deps 0 [("A", "B"), ("A", "C"), ("B", "D"), ("C", "D")]⟩ }

/-- The state after 60 steps of the diamond. -/
def diamondEnd : Eng := Eng.run plainEnv (Eng.init plainEnv "1" "u" diamond []) 60

-- non-trivial instance: the joining task D is evaluated once, last, after both its links were decided
example : Reachable plainEnv diamondEnd := ⟨"1", "u", diamond, [], 60, rfl⟩
example : (calls diamondEnd 0).map (fun ev => match ev with | .evalAct _ t => t.id | _ => "") = ["D", "C", "B", "A"] := by
  decide
example : flowStatus diamondEnd 0 = some .completed := by decide

/-! ### C02 -/

/-- C02: a task is reported skipped only when it has incoming links, all of them are decided and none is followed. -/
theorem C02_skipped_only_when {env : Env} {e : Eng} (hr : Reachable env e) {i : Nat} {I : Inst}
    (hI : e.insts[i]? = some I) {post pre : List Ev} {o : Nat} {t : TaskRef}
    (hs : I.trace = post ++ .taskStatus o t .skipped :: pre) :
    I.defn.fromLinks t ≠ [] ∧ AllDecided pre (I.defn.fromLinks t) ∧ ¬ SomeFollowed pre (I.defn.fromLinks t) :=
  (traces_in_order hr hI hs).1

/-! ### C10 -/

/-- C10: once the top-level flow is Completed or Failed, no further step changes its status or calls an activity of any
flow instance. -/
theorem C10_finished_stays_finished {env : Env} {e : Eng} (hr : Reachable env e) {s : FlowStatus}
    (hs : s = .completed ∨ s = .failed) (h : flowStatus e 0 = some s) (n : Nat) :
    flowStatus (Eng.run env e n) 0 = some s ∧ ∀ i, calls (Eng.run env e n) i = calls e i := by
  induction n with
  | zero => exact ⟨h, fun _ => rfl⟩
  | succ n ih =>
    obtain ⟨h1, h2⟩ := ih
    have hrn := Eng.reachable_run hr n
    simp only [Eng.run]
    generalize Eng.run env e n = f at h1 h2 hrn
    have hl := (Eng.engOK_reachable hrn).length_pos
    by_cases hst : f.stack = []
    · have hn : next env f = none := by
        unfold Spec.next
        rw [if_neg]
        rintro ⟨_, h3⟩
        rw [h1] at h3; cases h3
        rcases hs with hs | hs <;> cases hs
      rw [Eng.step_idle hst hn hl]
      exact ⟨h1, h2⟩
    · have hf := Eng.EnterFrame.step (env := env) hst
      refine ⟨?_, fun i => (hf.calls i).trans (h2 i)⟩
      rcases hs with hs | hs
      · subst hs
        rcases hf.flowStatus h1 with h3 | ⟨_, h3⟩ <;> exact h3
      · subst hs
        exact absurd (Eng.failOK_reachable hrn h1) hst

/-- C10: once the top-level flow is finished and its last step is over, the state never changes again except for the
step counter. -/
theorem C10_finished_is_final {env : Env} {e : Eng} (hl : 0 < e.insts.length) (hst : e.stack = []) {s : FlowStatus}
    (hs : s = .completed ∨ s = .failed) (h : flowStatus e 0 = some s) (n : Nat) :
    Eng.run env e n = { e with stepID := e.stepID + n } := by
  induction n with
  | zero => rfl
  | succ n ih =>
    simp only [Eng.run]
    rw [ih]
    have hn : next env { e with stepID := e.stepID + n } = none := by
      unfold Spec.next
      rw [if_neg]
      rintro ⟨_, h3⟩
      have h4 : flowStatus e 0 = some .active := h3
      rw [h] at h4; cases h4
      rcases hs with hs | hs <;> cases hs
    rw [Eng.step_idle (e := { e with stepID := e.stepID + n }) hst hn hl]
    simp [Nat.add_assoc]

/-- A failing task without error link and without error handler. -/
def failing : Env := tableEnv (fun t => if t = "B" then { res := .err (.plain "boom") } else {}) (fun _ => .ok true)

-- non-trivial instances: a completed and a failed run
example : flowStatus diamondEnd 0 = some .completed := by decide
example : flowStatus (Eng.run failing (Eng.init failing "1" "u" diamond []) 20) 0 = some .failed := by decide

/-! ### C14, at most one start -/

theorem ehStart_once {d : Def} {tr : List Ev} (h : TraceOK d tr) : (tr.filter (· = .ehStart)).length ≤ 1 := by
  induction tr with
  | nil => simp
  | cons ev tr ih =>
    simp only [List.filter_cons]
    split
    · rename_i he
      have he' : ev = .ehStart := by simpa using he
      subst he'
      have h1 : Ev.ehStart ∉ tr := h.1
      have : tr.filter (· = .ehStart) = [] := by
        rw [List.filter_eq_nil_iff]
        intro a ha hc
        simp at hc; subst hc; exact h1 ha
      simp [this]
    · exact ih h.2

/-- C14: the error handler of a flow instance is started at most once. -/
theorem C14_started_at_most_once {env : Env} {e : Eng} (hr : Reachable env e) {i : Nat} {I : Inst}
    (hI : e.insts[i]? = some I) : (I.trace.filter (· = .ehStart)).length ≤ 1 :=
  ehStart_once ((Eng.engOK_reachable hr).ok i I hI).trace

/-! ### C26 -/

/-- C26: the identifiers of all flow instances of a run are pairwise different. -/
theorem C26_unique_ids {env : Env} {e : Eng} (hr : Reachable env e) {i j : Nat} {I J : Inst} (hI : e.insts[i]? = some I)
    (hJ : e.insts[j]? = some J) (h : e.instID I = e.instID J) : i = j := by
  have ok := Eng.engOK_reachable hr
  have h1 := ok.sid i I hI
  have h2 := ok.sid j J hJ
  unfold Eng.instID at h
  rw [h1, h2] at h
  have hlen : ∀ n : Nat, ¬ (e.id ++ "-" ++ toString n = e.id) := by
    intro n hc
    have h3 : (e.id ++ "-" ++ toString n).toList.length = e.id.toList.length := by rw [hc]
    simp at h3
  have hinj : ∀ a b : Nat, e.id ++ "-" ++ toString a = e.id ++ "-" ++ toString b → a = b := by
    intro a b hc
    have h3 : (e.id ++ "-" ++ toString a).toList = (e.id ++ "-" ++ toString b).toList := by rw [hc]
    simp only [String.toList_append, List.append_assoc, List.append_cancel_left_eq] at h3
    have h4 : toString a = toString b := String.toList_inj.1 h3
    exact Nat.repr_injective h4
  split at h
  · split at h
    · exact hinj i j h
    · exact absurd h (hlen i)
  · split at h
    · exact absurd h.symm (hlen j)
    · omega

/-! ### C47 -/

/-- C47: work items get strictly increasing identifiers, an item is removed only after it was added, and never twice. -/
theorem C47_queue_log {env : Env} {e : Eng} (hr : Reachable env e) : QueueOK e.qlog := (Eng.engOK_reachable hr).qlog

/-- C47: the pending items are exactly those that were added and not removed, each of them once. -/
theorem C47_pending {env : Env} {e : Eng} (hr : Reachable env e) :
    (∀ w, w ∈ e.queue ↔ .added w ∈ e.qlog ∧ .removed w ∉ e.qlog) ∧ (e.queue.map (·.id)).Nodup :=
  ⟨(Eng.engOK_reachable hr).qmem, (Eng.engOK_reachable hr).qnodup⟩

end Flow
