import Verif.Model.Scopes

/-!
C29: working data is local to its task, other attributes are those of the flow instance.
-/

namespace Flow
open Scp

/-! Specification: the value of the last write. -/

namespace Spec

/-- The value that a write gives to working data `k` of task instance `o`. -/
def workingOf (o : Nat) (k : String) : Op → Option Val
  | .working p n v => if p = o ∧ n = k then some v else none
  | _ => none

/-- The value last written as working data `k` of task instance `o`. -/
def lastWorking (o : Nat) (k : String) (ops : List Op) : Option Val := (ops.filterMap (workingOf o k)).getLast?

/-- The value that a write gives to attribute `n`: the instance or any of its tasks may write it. -/
def attrOf (n : String) : Op → Option Val
  | .inst m v => if m = n then some v else none
  | .task _ m v => if m = n then some v else none
  | .working .. => none

/-- The value last written to attribute `n`. -/
def lastAttr (n : String) (ops : List Op) : Option Val := (ops.filterMap (attrOf n)).getLast?

/-- Task instance `o` has written working data. -/
def HasWorking (o : Nat) (ops : List Op) : Prop := ∃ k v, .working o k v ∈ ops

end Spec

open Spec

theorem last_cons (f : Op → Option Val) (op : Op) (ops : List Op) :
    ((op :: ops).filterMap f).getLast? = ((ops.filterMap f).getLast?).or (f op) := by
  rw [List.filterMap_cons]
  cases f op with
  | none => simp
  | some v =>
    dsimp only
    rw [List.getLast?_cons]
    cases (List.filterMap f ops).getLast? <;> rfl

theorem getWorking_step (s : State) (op : Op) (o : Nat) (k : String) :
    getWorking (step s op) o k = (workingOf o k op).or (getWorking s o k) := by
  cases op with
  | inst n v => simp [step, setValue, getWorking, workingOf]
  | task p n v => simp [step, taskSet, setValue, getWorking, workingOf]
  | working p n v =>
    simp only [step, setWorking, getWorking, workingOf]
    by_cases hp : o = p
    · subst hp
      simp only [if_true, true_and]
      rw [AMap.get?_set]
      by_cases hn : n = k
      · simp [hn]
      · cases hw : s.working o <;> simp [hn]
    · have hp' : ¬ p = o := fun h => hp h.symm
      simp [hp, hp']

theorem getValue_step (s : State) (op : Op) (n : String) : getValue (step s op) n = (attrOf n op).or (getValue s n) := by
  cases op with
  | inst m v =>
    simp only [step, setValue, getValue, AMap.get?_set, attrOf]
    by_cases h : m = n
    · simp [h]
    · simp [h]
  | task p m v =>
    simp only [step, taskSet, setValue, getValue, AMap.get?_set, attrOf]
    by_cases h : m = n
    · simp [h]
    · simp [h]
  | working p m v => simp [step, setWorking, getValue, attrOf]

theorem scp_getWorking (s : State) (ops : List Op) (o : Nat) (k : String) :
    getWorking (run s ops) o k = (lastWorking o k ops).or (getWorking s o k) := by
  induction ops generalizing s with
  | nil => simp [run, lastWorking]
  | cons op ops ih => rw [run, ih, lastWorking, lastWorking, last_cons, Option.or_assoc, getWorking_step]

theorem scp_getValue (s : State) (ops : List Op) (n : String) :
    getValue (run s ops) n = (lastAttr n ops).or (getValue s n) := by
  induction ops generalizing s with
  | nil => simp [run, lastAttr]
  | cons op ops ih => rw [run, ih, lastAttr, lastAttr, last_cons, Option.or_assoc, getValue_step]

theorem scp_working (s : State) (ops : List Op) (o : Nat) :
    ((run s ops).working o).isSome ↔ HasWorking o ops ∨ (s.working o).isSome := by
  induction ops generalizing s with
  | nil => simp [run, HasWorking]
  | cons op ops ih =>
    rw [run, ih]
    have hw : HasWorking o (op :: ops) ↔ (∃ k v, op = .working o k v) ∨ HasWorking o ops := by
      unfold HasWorking
      constructor
      · rintro ⟨k, v, h⟩
        rcases List.mem_cons.1 h with h | h
        · exact Or.inl ⟨k, v, h.symm⟩
        · exact Or.inr ⟨k, v, h⟩
      · rintro (⟨k, v, h⟩ | ⟨k, v, h⟩)
        · exact ⟨k, v, by simp [h]⟩
        · exact ⟨k, v, List.mem_cons_of_mem _ h⟩
    rw [hw]
    cases op with
    | inst m v => simp [step, setValue]
    | task p m v => simp [step, taskSet, setValue]
    | working p m v =>
      simp only [step, setWorking, Op.working.injEq]
      by_cases hp : o = p
      · subst hp; simp
      · simp [hp, Ne.symm hp]

theorem workingName_prefix (k : String) : workingName ("_W." ++ k) = some k := by
  unfold workingName
  rw [String.toList_append]
  have h : ("_W.".toList).isPrefixOf ("_W.".toList ++ k.toList) = true := by
    rw [List.isPrefixOf_iff_prefix]; exact List.prefix_append _ _
  rw [if_pos h]
  show some (String.ofList (List.drop 3 (['_', 'W', '.'] ++ k.toList))) = _
  simp

/-- **C29** Working data is visible only through its task: after any sequence of writes, the working data of a task
instance is what was last written to it through this task instance; reads of `_W.` names through the task give exactly
this data. -/
theorem C29_working (s : State) (hs : s.working = fun _ => none) (ops : List Op) (o : Nat) (k : String) :
    getWorking (run s ops) o k = lastWorking o k ops ∧
    (HasWorking o ops → taskGet (run s ops) o ("_W." ++ k) = lastWorking o k ops) := by
  have h1 : getWorking (run s ops) o k = lastWorking o k ops := by
    rw [scp_getWorking]; simp [getWorking, hs]
  refine ⟨h1, fun hw => ?_⟩
  have h2 := (scp_working s ops o).2 (Or.inl hw)
  unfold taskGet
  unfold getWorking at h1
  cases hx : (run s ops).working o with
  | none => rw [hx] at h2; cases h2
  | some w =>
    rw [hx] at h1
    dsimp only at h1 ⊢
    rw [workingName_prefix]
    exact h1

/-- **C29** Attributes: what the instance reads under a name is what was last written under this name, by the instance
or through any task, and otherwise the initial value; working data is never found there, whatever the name. A task
reads the same under every name that does not begin with `_W.`. -/
theorem C29_attributes (s : State) (ops : List Op) (n : String) :
    getValue (run s ops) n = (lastAttr n ops).or (getValue s n) ∧
    (¬ "_W.".toList <+: n.toList → ∀ o, taskGet (run s ops) o n = getValue (run s ops) n) := by
  refine ⟨scp_getValue s ops n, fun hn o => ?_⟩
  unfold taskGet
  cases (run s ops).working o with
  | none => rfl
  | some w =>
    have : workingName n = none := by
      unfold workingName
      rw [if_neg]
      rw [List.isPrefixOf_iff_prefix]; exact hn
    dsimp only
    rw [this]

/-- Two tasks with working data under the same key, and an attribute with the key as its name. -/
example : let s := run { attrs := [("x", .int 1)] } [.working 0 "k" (.int 5), .working 1 "k" (.int 6), .task 1 "k" (.int 7)]
    (getWorking s 0 "k" = some (.int 5) ∧ taskGet s 1 "_W.k" = some (.int 6)) ∧
    (getValue s "k" = some (.int 7) ∧ taskGet s 0 "k" = some (.int 7) ∧ getValue s "_W.k" = none) := by
  refine ⟨⟨rfl, rfl⟩, rfl, rfl, rfl⟩

/-- A name that begins with `_W.` is not an ordinary name: an attribute of this name that is written through a task can
be read through the instance but not through the task, once it has working data. -/
theorem C29_reserved (s : State) (o : Nat) (k : String) (v : Val) (w : AMap String Val) (hw : s.working o = some w)
    (hk : w.get? k = none) :
    getValue (taskSet s o ("_W." ++ k) v) ("_W." ++ k) = some v ∧ taskGet (taskSet s o ("_W." ++ k) v) o ("_W." ++ k) = none := by
  constructor
  · simp [getValue, taskSet, setValue, AMap.get?_set]
  · unfold taskGet taskSet setValue
    rw [hw]
    dsimp only
    rw [workingName_prefix]
    exact hk

end Flow
