/-
Basic vocabulary of the flow engine: status constants, link types, evaluation results,
attribute values and finite maps.
-/

namespace Flow

/-- Flow status constants. Models `model/status.go` lines 8-21 (`FlowStatus`). -/
inductive FlowStatus
  | notStarted | active | completed | cancelled | failed
  deriving DecidableEq, Repr

/-- Numeric values of the flow status constants, `model/status.go` lines 8-21. -/
def FlowStatus.code : FlowStatus → Nat
  | .notStarted => 0
  | .active => 100
  | .completed => 500
  | .cancelled => 600
  | .failed => 700

/-- Task status constants. Models `model/status.go` lines 23-42 (`TaskStatus`). -/
inductive TaskStatus
  | notStarted | entered | ready | waiting | done | skipped | failed
  deriving DecidableEq, Repr

/-- Numeric values of the task status constants, `model/status.go` lines 23-42. -/
def TaskStatus.code : TaskStatus → Nat
  | .notStarted => 0
  | .entered => 10
  | .ready => 20
  | .waiting => 30
  | .done => 40
  | .skipped => 50
  | .failed => 100

/-- Link status constants, `model/status.go` lines 44-51 (`LinkStatus`). `unset` is the zero value of a fresh
link instance. -/
inductive LinkStatus
  | unset | false | true | skipped
  deriving DecidableEq, Repr

/-- Numeric values of the link status constants, `model/status.go` lines 44-51. -/
def LinkStatus.code : LinkStatus → Nat
  | .unset => 0
  | .false => 1
  | .true => 2
  | .skipped => 3

/-- Link types, `definition/definition.go` lines 428-445. -/
inductive LinkType
  | dependency | expression | label | error | otherwise
  deriving DecidableEq, Repr

/-- Results of `TaskBehavior.Enter`, `model/behavior.go` lines 49-55 (`EnterResult`). -/
inductive EnterResult
  | notReady | eval | skip
  deriving DecidableEq, Repr

/-- Results of `TaskBehavior.Eval`/`PostEval`, `model/behavior.go` lines 39-47 (`EvalResult`). -/
inductive EvalResult
  | fail | done | again | wait | skip
  deriving DecidableEq, Repr

abbrev TaskId := String
abbrev LinkId := Nat

/-- Attribute values (`interface{}` in Go). Simplification: JSON-like values only, all numbers are integers.
`arr` is a `[]interface{}`, `slice` any other Go slice or array (for example `[]string`). -/
inductive Val
  | null
  | bool (b : Bool)
  | int (n : Int)
  | str (s : String)
  | arr (l : List Val)
  | slice (l : List Val)
  | obj (l : List (String × Val))
  deriving Repr, Inhabited

/-- Go `error` values, distinguished as in `TaskInst.getErrorObject`, taskinst.go lines 562-579, and in the retry
test `err.(*activity.Error)`, taskbehavior.go line 121. -/
inductive Err
  /-- `*activity.Error` of the core library: message, code, data, activity name, retriable flag. -/
  | act (msg code : String) (data : Val) (activity : String) (retriable : Bool)
  /-- `*ActivityEvalError`, ind_instance.go lines 838-858: task name, type, text. -/
  | eval (taskName typ msg : String)
  /-- `*definition.LinkExprError`. -/
  | linkExpr (msg : String)
  /-- any other error -/
  | plain (msg : String)
  deriving Repr, Inhabited

/-- `err.Error()`. -/
def Err.msg : Err → String
  | .act m _ _ _ _ => m
  | .eval _ _ m => m
  | .linkExpr m => m
  | .plain m => m

/-- `errVal, ok := err.(*activity.Error); ok && errVal.Retriable()`, taskbehavior.go line 121. -/
def Err.retriable : Err → Bool
  | .act _ _ _ _ r => r
  | _ => false

/-- `_, ok := err.(*activity.Error)`, taskbehavior.go line 161. -/
def Err.isAct : Err → Bool
  | .act .. => true
  | _ => false

/-- `e.SetActivityName(name)` applied if the error is a `*activity.Error`, taskinst.go lines 372-375. -/
def Err.setActivity (name : String) : Err → Err
  | .act m c d _ r => .act m c d name r
  | e => e

/-! ### Finite maps

A Go map is modelled as an association list; `set` replaces an existing binding in place and otherwise
appends, so the keys stay distinct. -/

abbrev AMap (K V : Type) := List (K × V)

namespace AMap

variable {K V : Type} [DecidableEq K]

/-- Go `m[k]` with the presence flag. -/
def get? : AMap K V → K → Option V
  | [], _ => none
  | (k', v) :: m, k => if k' = k then some v else get? m k

/-- Go `m[k] = v`. -/
def set : AMap K V → K → V → AMap K V
  | [], k, v => [(k, v)]
  | (k', v') :: m, k, v => if k' = k then (k, v) :: m else (k', v') :: set m k v

/-- Go `delete(m, k)`. -/
def del (m : AMap K V) (k : K) : AMap K V := m.filter (fun p => p.1 ≠ k)

/-- Keys of the map, in list order. -/
def keys (m : AMap K V) : List K := m.map (·.1)

/-- `for k, v := range n { m[k] = v }`. -/
def update (m n : AMap K V) : AMap K V := n.foldl (fun a p => a.set p.1 p.2) m

@[simp] theorem get?_nil (k : K) : get? ([] : AMap K V) k = none := rfl

theorem get?_set (m : AMap K V) (k k' : K) (v : V) :
    (m.set k v).get? k' = if k = k' then some v else m.get? k' := by
  induction m with
  | nil => simp [set, get?]
  | cons p m ih =>
    obtain ⟨a, b⟩ := p
    simp only [set]
    by_cases h : a = k
    · subst h; simp [get?]; split <;> simp_all
    · simp only [h, if_false, get?, ih]
      by_cases h2 : a = k'
      · subst h2; simp [Ne.symm h]
      · simp [h2]

theorem get?_set_self (m : AMap K V) (k : K) (v : V) : (m.set k v).get? k = some v := by
  simp [get?_set]

theorem get?_set_ne (m : AMap K V) {k k' : K} (v : V) (h : k ≠ k') :
    (m.set k v).get? k' = m.get? k' := by
  simp [get?_set, h]

theorem get?_del (m : AMap K V) (k k' : K) :
    (m.del k).get? k' = if k = k' then none else m.get? k' := by
  induction m with
  | nil => simp [del, get?]
  | cons p m ih =>
    obtain ⟨a, b⟩ := p
    unfold del at ih ⊢
    by_cases h : a = k
    · subst h
      simp only [List.filter_cons]
      simp only [ne_eq, not_true_eq_false, decide_false, Bool.false_eq_true, ↓reduceIte, ih, get?]
      by_cases h2 : a = k' <;> simp [h2]
    · simp only [List.filter_cons]
      simp only [ne_eq, h, not_false_eq_true, decide_true, ↓reduceIte, get?, ih]
      by_cases h2 : a = k'
      · subst h2; simp [Ne.symm h]
      · simp [h2]

theorem mem_of_get? {m : AMap K V} {k : K} {v : V} (h : m.get? k = some v) : (k, v) ∈ m := by
  induction m with
  | nil => simp at h
  | cons p m ih =>
    obtain ⟨a, b⟩ := p
    simp only [get?] at h
    split at h
    · rename_i h2; subst h2; simp at h; subst h; simp
    · exact List.mem_cons_of_mem _ (ih h)

theorem get?_of_mem_nodup {m : AMap K V} (hn : m.keys.Nodup) {k : K} {v : V} (h : (k, v) ∈ m) :
    m.get? k = some v := by
  induction m with
  | nil => simp at h
  | cons p m ih =>
    obtain ⟨a, b⟩ := p
    simp only [keys, List.map_cons, List.nodup_cons] at hn
    simp only [get?]
    rcases List.mem_cons.1 h with h | h
    · cases h; simp
    · have : a ≠ k := by
        intro hak; subst hak
        exact hn.1 (List.mem_map.2 ⟨(a, v), h, rfl⟩)
      simp [this, ih hn.2 h]

theorem get?_isSome_iff {m : AMap K V} {k : K} : (m.get? k).isSome ↔ k ∈ m.keys := by
  induction m with
  | nil => simp [get?, keys]
  | cons p m ih =>
    obtain ⟨a, b⟩ := p
    simp only [get?, keys, List.map_cons, List.mem_cons]
    by_cases h : a = k
    · simp [h]
    · simp only [h, if_false, ih, keys]
      constructor
      · intro h1; exact Or.inr h1
      · rintro (h1 | h1)
        · exact absurd h1.symm h
        · exact h1

theorem get?_eq_none_iff {m : AMap K V} {k : K} : m.get? k = none ↔ k ∉ m.keys := by
  rw [← get?_isSome_iff]; cases m.get? k <;> simp

theorem mem_keys_set {m : AMap K V} {k k' : K} {v : V} :
    k' ∈ (m.set k v).keys ↔ k' = k ∨ k' ∈ m.keys := by
  rw [← get?_isSome_iff, ← get?_isSome_iff, get?_set]
  by_cases h : k = k'
  · simp [h]
  · simp [h, Ne.symm h]

theorem nodup_keys_set {m : AMap K V} (h : m.keys.Nodup) (k : K) (v : V) : (m.set k v).keys.Nodup := by
  induction m with
  | nil => simp [set, keys]
  | cons p m ih =>
    obtain ⟨a, b⟩ := p
    simp only [keys, List.map_cons, List.nodup_cons] at h
    simp only [set]
    by_cases hk : a = k
    · subst hk; simpa [keys] using h
    · simp only [hk, if_false, keys, List.map_cons, List.nodup_cons]
      refine ⟨?_, ih h.2⟩
      intro hmem
      have := (mem_keys_set (m := m) (k := k) (k' := a) (v := v)).1 hmem
      rcases this with h1 | h1
      · exact hk h1
      · exact h.1 h1

theorem nodup_keys_del {m : AMap K V} (h : m.keys.Nodup) (k : K) : (m.del k).keys.Nodup := by
  unfold del keys
  exact List.Nodup.sublist (List.Sublist.map _ List.filter_sublist) h

theorem get?_update (m n : AMap K V) (hn : n.keys.Nodup) (k : K) :
    (m.update n).get? k = (n.get? k).orElse (fun _ => m.get? k) := by
  unfold update
  induction n generalizing m with
  | nil => simp
  | cons p n ih =>
    obtain ⟨a, b⟩ := p
    simp only [keys, List.map_cons, List.nodup_cons] at hn
    simp only [List.foldl_cons]
    rw [ih _ hn.2]
    simp only [get?, get?_set]
    by_cases h : a = k
    · subst h
      have : AMap.get? n a = none := get?_eq_none_iff.2 hn.1
      simp [this]
    · simp [h]

end AMap

end Flow
