import Verif.Proofs.Accumulate
import Verif.Spec.Plain

/-
C23: the accumulated output of a loop task.
-/

namespace Flow

open Spec

variable {env : Env} {i o : Nat} {id : TaskId}

/-- What holds of C23 in a whole run: the accumulated output of task `id` of flow instance `i` is what it was followed by what
the steps added, in this order. A step adds at most one entry: none unless it evaluates a task with this name, the outputs of
the task if it finishes an iteration.

Missing: activities and output mappings must not use the attribute `_A.<task>`, see `C23_negation`. An evaluation that ends
with an error after the outputs were stored (output mapping, assertion or do-while condition) may have added an entry. -/
theorem C23_accumulated_partial (hu : Reserved env ("_A." ++ id)) {e : Eng} (hi : i < e.insts.length) {l : List Val}
    (hl : entries (attrAt e i ("_A." ++ id)) = some l) :
    ∃ added : Nat → List Val, (∀ m, Contributes env (Eng.run env e m) i id (added m)) ∧
      ∀ n, entries (attrAt (Eng.run env e n) i ("_A." ++ id)) = some (l ++ (List.range n).flatMap added) := by
  have hlen : ∀ m, i < (Eng.run env e m).insts.length := by
    intro m
    induction m with
    | zero => exact hi
    | succ m ih =>
      obtain ⟨_, _, _, h⟩ := Eng.step_contributes hu ih
      exact h
  refine ⟨fun m => Classical.choose (Eng.step_contributes hu (hlen m)),
    fun m => (Classical.choose_spec (Eng.step_contributes hu (hlen m))).2.1, fun n => ?_⟩
  induction n with
  | zero => simpa [Eng.run] using hl
  | succ n ih =>
    have h := (Classical.choose_spec (Eng.step_contributes hu (hlen n))).1
    have h2 := h.entries ih
    rw [List.range_succ, List.flatMap_append, ← List.append_assoc]
    show entries (attrAt (Eng.step env (Eng.run env e n)) i ("_A." ++ id)) = _
    simpa using h2

/-- Entries are never changed or removed, whatever is executed later. -/
theorem C23_prefix_partial (hu : Reserved env ("_A." ++ id)) {e : Eng} (hi : i < e.insts.length) {l : List Val}
    (hl : entries (attrAt e i ("_A." ++ id)) = some l) (n : Nat) :
    ∃ more, entries (attrAt (Eng.run env e n) i ("_A." ++ id)) = some (l ++ more) := by
  obtain ⟨added, _, h⟩ := C23_accumulated_partial hu hi hl
  exact ⟨_, h n⟩

/-- The next step finishes an iteration of task `id` of flow instance `i`, which accumulates its outputs. -/
def IterationEnds (env : Env) (e : Eng) (i : Nat) (id : TaskId) : Prop :=
  ∃ o t e' r td, Evaluates env e i o t e' r ∧ t.id = id ∧ e.taskDef? i t = some td ∧ Accumulating td ∧ FinishesIteration env td e i o r

open Classical in
/-- The number of iterations finished in the first `n` steps. -/
noncomputable def finishedIterations (env : Env) (e : Eng) (i : Nat) (id : TaskId) : Nat → Nat
  | 0 => 0
  | n + 1 => finishedIterations env e i id n + if IterationEnds env (Eng.run env e n) i id then 1 else 0

/-- If every evaluation of the task finishes an iteration, waits or finds no further element, there are as many new entries as
finished iterations. -/
theorem C23_one_per_iteration_partial (hu : Reserved env ("_A." ++ id)) {e : Eng} (hi : i < e.insts.length) {l : List Val}
    (hl : entries (attrAt e i ("_A." ++ id)) = some l) {n : Nat}
    (hall : ∀ m < n, ∀ o t e' r td, Evaluates env (Eng.run env e m) i o t e' r → t.id = id → (Eng.run env e m).taskDef? i t = some td →
      Accumulating td ∧ (FinishesIteration env td (Eng.run env e m) i o r ∨ NoIteration td (Eng.run env e m) i o r)) :
    ∃ new, entries (attrAt (Eng.run env e n) i ("_A." ++ id)) = some (l ++ new) ∧ new.length = finishedIterations env e i id n := by
  obtain ⟨added, hc, h⟩ := C23_accumulated_partial hu hi hl
  refine ⟨_, h n, ?_⟩
  clear h
  induction n with
  | zero => rfl
  | succ n ih =>
    unfold finishedIterations
    rw [List.range_succ, List.flatMap_append, List.length_append, ih fun m hm => hall m (by omega)]
    congr 1
    rw [List.flatMap_cons, List.flatMap_nil, List.append_nil]
    by_cases hev : ∃ o t e' r, Evaluates env (Eng.run env e n) i o t e' r ∧ t.id = id
    · obtain ⟨o, t, e', r, hev, hid⟩ := hev
      obtain ⟨ob, td, _, _, htd⟩ := Eng.evaluates_obj hev
      obtain ⟨hacc, hf⟩ := hall n (by omega) o t e' r td hev hid htd
      by_cases hfin : FinishesIteration env td (Eng.run env e n) i o r
      · rw [if_pos ⟨o, t, e', r, td, hev, hid, htd, hacc, hfin⟩, (hc n).finished o t e' r td hev hid htd hacc hfin]
        rfl
      · rw [if_neg, (hc n).other o t e' r td hev htd (.inr (hf.resolve_left hfin))]
        · rfl
        · rintro ⟨o2, t2, e2, r2, td2, hev2, _, htd2, _, hfin2⟩
          obtain ⟨_, rfl, rfl, rfl, rfl⟩ := Eng.evaluates_unique hev hev2
          rw [htd] at htd2; cases htd2
          exact hfin hfin2
    · rw [if_neg, (hc n).quiet fun o t e' r h hid => hev ⟨o, t, e', r, h, hid⟩]
      · rfl
      · rintro ⟨o2, t2, e2, r2, td2, hev2, hid2, _⟩
        exact hev ⟨o2, t2, e2, r2, hev2, hid2⟩

/-- A do-while task that accumulates its outputs, followed by another task. -/
def collecting (a b : TaskId) : Def :=
  { name := "f", main := ⟨[{ tk a with kind := .doWhile, loop := some { hasCondition := true, accumulate := true } }, tk b], [⟨1, a, b, .dependency, ""⟩]⟩ }

/-- Three iterations; the output is the index. -/
def collectingEnv : Env :=
  { plainEnv with
    cond := fun e i o => .ok (decide (((e.obj? i o).bind (·.dwIndex)).getD 0 < 2))
    act := fun e i o => { outputs := some (some [("n", .int (((e.obj? i o).bind (·.dwIndex)).getD 0))]) } }

def collected (e : Eng) (key : String) : Option (List Int) :=
  (entries (attrAt e 0 key)).map (fun l => l.filterMap (fun v => match v with
    | .obj [(_, .int n)] => some n
    | _ => none))

-- three iterations, three entries in order
example : collected (Eng.run collectingEnv (Eng.init collectingEnv "1" "u" (collecting "A" "B") []) 20) "_A.A" = some [0, 1, 2] := by decide +kernel
example : Reserved collectingEnv ("_A." ++ "A") := ⟨fun _ _ _ => rfl, fun _ _ _ => rfl, fun _ _ _ _ _ h => nomatch h⟩
example : entries (attrAt (Eng.init collectingEnv "1" "u" (collecting "A" "B") []) 0 "_A.A") = some [] := rfl
-- the first step finishes an iteration
example : ∃ e' r td, Evaluates collectingEnv (Eng.init collectingEnv "1" "u" (collecting "A" "B") []) 0 0 ⟨false, "A"⟩ e' r ∧
    (Eng.init collectingEnv "1" "u" (collecting "A" "B") []).taskDef? 0 ⟨false, "A"⟩ = some td ∧ Accumulating td ∧
    FinishesIteration collectingEnv td (Eng.init collectingEnv "1" "u" (collecting "A" "B") []) 0 0 r :=
  ⟨_, _, _, ⟨⟨⟨1, 0, 0⟩, rfl, rfl, rfl, rfl⟩, rfl⟩, rfl, ⟨_, rfl, rfl⟩, _, rfl, (fun h => nomatch h), fun _ => .inl rfl⟩

-- the hypotheses of `C23_appends_partial`, for the same task
example : ∃ ob td cfg, (Eng.init collectingEnv "1" "u" (collecting "A" "B") []).obj? 0 0 = some ob ∧
    (Eng.init collectingEnv "1" "u" (collecting "A" "B") []).taskDef? 0 ob.task = some td ∧ td.act.sub? = none ∧ td.loop = some cfg ∧
    cfg.accumulate = true ∧ cfg.applyOutput = false ∧
    ((Eng.init collectingEnv "1" "u" (collecting "A" "B") []).evalOnce collectingEnv 0 0).2 = .ok true :=
  ⟨_, _, _, rfl, rfl, rfl, rfl, rfl, rfl, rfl⟩
example : Steady collectingEnv 0 0 := ⟨(fun _ _ h => nomatch h), fun _ => rfl, fun _ => rfl⟩

/-- The output mapping of task `T` stores the output `x` under `_A.T.x` (the default of Flogo). -/
def storingEnv : Env :=
  { collectingEnv with
    outMap := fun e i o => match e.obj? i o with
      | none => none
      | some ob => some ([("_A." ++ ob.task.id ++ "." ++ "x", .str "text")], none) }

/-- C23 fails if the name of another task and its output together look like the name of the loop task: after three iterations
the accumulated output of `B.x` is the output `x` of `B`. -/
theorem C23_negation : ∃ (env : Env) (d : Def) (m n : Nat),
    (entries (attrAt (Eng.run env (Eng.init env "1" "u" d []) m) 0 ("_A." ++ "B.x"))).map List.length = some 3 ∧ m < n ∧
      (attrAt (Eng.run env (Eng.init env "1" "u" d []) n) 0 ("_A." ++ "B.x")) = some (.str "text") :=
  ⟨storingEnv, collecting "B.x" "B", 5, 20, by decide +kernel, by decide, rfl⟩

end Flow
