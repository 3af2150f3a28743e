import Verif.Model.Outputs

/-!
C48: outputs of different tasks do not overwrite each other.
-/

namespace Flow
open Out

namespace Spec

/-- The value that a write gives to output `n` of task `t`: `t` finished, declares `n`, and has a value for it. -/
def produced (t : TaskId) (n : String) : Write → Option Val
  | .task t' (some names) outs => if t' = t ∧ n ∈ names then outs.get? n else none
  | _ => none

/-- The value of output `n` in the last execution of `t` that has one. -/
def lastOutput (t : TaskId) (n : String) (ws : List Write) : Option Val := (ws.filterMap (produced t n)).getLast?

def NoDot (s : String) : Prop := '.' ∉ s.toList

/-- The task identifiers have no dot, and other attributes do not begin with `_A.`. -/
def PlainIds : Write → Prop
  | .task t _ _ => NoDot t
  | .attr n _ => ¬ "_A.".toList <+: n.toList

/-- The output names have no dot, and other attributes do not begin with `_A.`. -/
def PlainNames : Write → Prop
  | .task _ md _ => ∀ names, md = some names → ∀ n ∈ names, NoDot n
  | .attr n _ => ¬ "_A.".toList <+: n.toList

end Spec

open Spec

theorem split_dot {l1 l2 r1 r2 : List Char} (h : l1 ++ '.' :: r1 = l2 ++ '.' :: r2) (h1 : '.' ∉ l1) (h2 : '.' ∉ l2) :
    l1 = l2 ∧ r1 = r2 := by
  induction l1 generalizing l2 with
  | nil =>
    cases l2 with
    | nil => simpa using h
    | cons c l2 =>
      simp only [List.nil_append, List.cons_append, List.cons.injEq] at h
      exact absurd (List.mem_cons.2 (Or.inl h.1)) h2
  | cons c l1 ih =>
    cases l2 with
    | nil =>
      simp only [List.nil_append, List.cons_append, List.cons.injEq] at h
      exact absurd (List.mem_cons.2 (Or.inl h.1.symm)) h1
    | cons d l2 =>
      simp only [List.cons_append, List.cons.injEq] at h
      obtain ⟨h3, h4⟩ := ih h.2 (fun hm => h1 (List.mem_cons_of_mem _ hm)) (fun hm => h2 (List.mem_cons_of_mem _ hm))
      exact ⟨by rw [h.1, h3], h4⟩

theorem key_toList (t n : String) : (key t n).toList = "_A.".toList ++ (t.toList ++ '.' :: n.toList) := by
  unfold key
  simp only [String.toList_append, List.append_assoc]
  rfl

/-- Keys of tasks without dots are different for different tasks or outputs. -/
theorem key_ids {t t' n n' : String} (h : key t' n' = key t n) (h1 : NoDot t) (h2 : NoDot t') : t' = t ∧ n' = n := by
  have h3 := congrArg String.toList h
  rw [key_toList, key_toList] at h3
  obtain ⟨h4, h5⟩ := split_dot (List.append_cancel_left h3) h2 h1
  exact ⟨String.toList_inj.1 h4, String.toList_inj.1 h5⟩

/-- The same if the output names have no dot. -/
theorem key_names {t t' n n' : String} (h : key t' n' = key t n) (h1 : NoDot n) (h2 : NoDot n') : t' = t ∧ n' = n := by
  have h3 := congrArg String.toList h
  rw [key_toList, key_toList] at h3
  have h4 := congrArg List.reverse (List.append_cancel_left h3)
  simp only [List.reverse_append, List.reverse_cons, List.append_assoc, List.singleton_append] at h4
  obtain ⟨h5, h6⟩ := split_dot h4 (by simpa [NoDot] using h2) (by simpa [NoDot] using h1)
  exact ⟨String.toList_inj.1 (List.reverse_inj.1 h6), String.toList_inj.1 (List.reverse_inj.1 h5)⟩

theorem key_prefix (t n : String) : "_A.".toList <+: (key t n).toList := by
  rw [key_toList]; exact List.prefix_append _ _

/-- Storing the outputs of a task sets the declared ones that have a value. -/
theorem update_own (attrs : AMap String Val) (t : TaskId) (names : List String) (outs : AMap String Val) (n : String)
    (hinj : ∀ n' ∈ names, key t n' = key t n → n' = n) :
    (attrs.update (defaultApply t (some names) outs)).get? (key t n) =
      ((if n ∈ names then outs.get? n else none)).or (attrs.get? (key t n)) := by
  unfold defaultApply AMap.update
  dsimp only
  induction names generalizing attrs with
  | nil => simp
  | cons m names ih =>
    have ih' := fun a => ih a (fun n' hn' => hinj n' (List.mem_cons_of_mem _ hn'))
    rw [List.filterMap_cons]
    cases hv : outs.get? m with
    | none =>
      simp only [Option.map_none]
      rw [ih']
      by_cases hmn : n = m
      · subst hmn
        rw [hv]
        split <;> simp
      · simp [hmn]
    | some v =>
      simp only [Option.map_some, List.foldl_cons]
      rw [ih', AMap.get?_set]
      by_cases hmn : n = m
      · subst hmn
        rw [hv]
        by_cases hin : n ∈ names <;> simp [hin]
      · have hk : key t m ≠ key t n := fun hk => hmn (hinj m (by simp) hk).symm
        simp [hmn, hk]

theorem update_other (attrs : AMap String Val) (t : TaskId) (names : List String) (outs : AMap String Val) (k : String)
    (h : ∀ n ∈ names, key t n ≠ k) : (attrs.update (defaultApply t (some names) outs)).get? k = attrs.get? k := by
  unfold defaultApply AMap.update
  dsimp only
  induction names generalizing attrs with
  | nil => simp
  | cons m names ih =>
    have ih' := fun a => ih a (fun n hn => h n (List.mem_cons_of_mem _ hn))
    rw [List.filterMap_cons]
    cases hv : outs.get? m with
    | none => simp only [Option.map_none]; exact ih' _
    | some v =>
      simp only [Option.map_some, List.foldl_cons]
      rw [ih', AMap.get?_set, if_neg (h m (by simp))]

/-- The write cannot hit output `n` of `t` by accident. -/
def Apart (t : TaskId) (n : String) : Write → Prop
  | .task t' md _ => ∀ names, md = some names → ∀ n' ∈ names, key t' n' = key t n → t' = t ∧ n' = n
  | .attr m _ => m ≠ key t n

theorem step_apart (attrs : AMap String Val) (w : Write) (t : TaskId) (n : String) (h : Apart t n w) :
    (Out.step attrs w).get? (key t n) = (produced t n w).or (attrs.get? (key t n)) := by
  cases w with
  | attr m v =>
    have hm : m ≠ key t n := h
    simp [Out.step, produced, AMap.get?_set, hm]
  | task t' md outs =>
    cases md with
    | none => simp [Out.step, produced, defaultApply, AMap.update]
    | some names =>
      have h' : ∀ n' ∈ names, key t' n' = key t n → t' = t ∧ n' = n := h names rfl
      by_cases ht : t' = t
      · subst ht
        show (attrs.update (defaultApply t' (some names) outs)).get? (key t' n) = _
        rw [update_own _ _ _ _ _ (fun n' hn' hk => (h' n' hn' hk).2)]
        simp [produced]
      · show (attrs.update (defaultApply t' (some names) outs)).get? (key t n) = _
        rw [update_other _ _ _ _ _ (fun n' hn' hk => ht (h' n' hn' hk).1)]
        simp [produced, ht]

theorem run_apart (ws : List Write) (attrs : AMap String Val) (t : TaskId) (n : String) (h : ∀ w ∈ ws, Apart t n w) :
    (Out.run attrs ws).get? (key t n) = (lastOutput t n ws).or (attrs.get? (key t n)) := by
  induction ws generalizing attrs with
  | nil => simp [Out.run, lastOutput]
  | cons w ws ih =>
    rw [Out.run, ih _ (fun w hw => h w (List.mem_cons_of_mem _ hw)), step_apart _ _ _ _ (h w (by simp)), ← Option.or_assoc]
    congr 1
    unfold lastOutput
    rw [List.filterMap_cons]
    cases produced t n w with
    | none => simp
    | some v =>
      dsimp only
      rw [List.getLast?_cons]
      cases (List.filterMap (produced t n) ws).getLast? <;> rfl

/-- **C48** (identifiers without dots) However many tasks finish and whatever other attributes are written, reading
output `n` of task `t` gives the value of this output in the last execution of `t` that produced it. -/
theorem C48_read_partial (ws : List Write) (attrs : AMap String Val) (t : TaskId) (n : String) (hn : n ≠ "") (ht : NoDot t)
    (h : ∀ w ∈ ws, PlainIds w) : resolve (Out.run attrs ws) t n = (lastOutput t n ws).or (resolve attrs t n) := by
  unfold resolve
  rw [if_pos hn, if_pos hn]
  refine run_apart ws attrs t n (fun w hw => ?_)
  have hw' := h w hw
  cases w with
  | attr m v =>
    intro hm
    rw [hm] at hw'
    exact hw' (key_prefix t n)
  | task t' md outs => exact fun names _ n' _ hk => key_ids hk ht hw'

/-- **C48** (output names without dots) The same for arbitrary task identifiers. -/
theorem C48_read_names_partial (ws : List Write) (attrs : AMap String Val) (t : TaskId) (n : String) (hn : n ≠ "")
    (ht : NoDot n) (h : ∀ w ∈ ws, PlainNames w) :
    resolve (Out.run attrs ws) t n = (lastOutput t n ws).or (resolve attrs t n) := by
  unfold resolve
  rw [if_pos hn, if_pos hn]
  refine run_apart ws attrs t n (fun w hw => ?_)
  have hw' := h w hw
  cases w with
  | attr m v =>
    intro hm
    rw [hm] at hw'
    exact hw' (key_prefix t n)
  | task t' md outs => exact fun names hnm n' hn' hk => key_names hk ht (hw' names hnm n' hn')

/-- Two tasks with the same output name, one of them executed twice. -/
example : let ws := [Write.task "A" (some ["x", "y"]) [("x", .int 1), ("z", .int 9)], .task "B" (some ["x"]) [("x", .int 2)],
      .attr "x" (.int 3), .task "A" (some ["x", "y"]) [("x", .int 4)]]
    (∀ w ∈ ws, PlainIds w ∧ PlainNames w) ∧
    (resolve (Out.run [] ws) "A" "x" = some (.int 4) ∧ resolve (Out.run [] ws) "B" "x" = some (.int 2) ∧
      resolve (Out.run [] ws) "A" "z" = none) := by
  refine ⟨?_, rfl, rfl, rfl⟩
  intro w hw
  simp only [List.mem_cons, List.not_mem_nil, or_false] at hw
  rcases hw with rfl | rfl | rfl | rfl <;>
    simp [PlainIds, PlainNames, NoDot]

/-- **C48** is false for identifiers with dots. (1) Output `B.x` of task `A` and output `x` of task `A.B` are stored under
the same name. (2) The accumulated outputs of task `A.x` (stored under `_A.A.x`, taskinst.go lines 581-600) replace
output `x` of task `A`. -/
theorem C48_negation :
    (let ws := [Write.task "A" (some ["B.x"]) [("B.x", .int 1)], .task "A.B" (some ["x"]) [("x", .int 2)]]
     lastOutput "A" "B.x" ws = some (.int 1) ∧ resolve (Out.run [] ws) "A" "B.x" = some (.int 2)) ∧
    (let ws := [Write.task "A" (some ["x"]) [("x", .int 1)], .attr ("_A." ++ "A.x") (.arr [.int 2])]
     lastOutput "A" "x" ws = some (.int 1) ∧ resolve (Out.run [] ws) "A" "x" = some (.arr [.int 2])) :=
  ⟨⟨rfl, rfl⟩, rfl, rfl⟩

end Flow
