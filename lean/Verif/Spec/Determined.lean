import Verif.Spec.Graph
import Verif.Spec.Attrs

/-
Specification of C108: executions of the same flow whose tasks compute the same from the same data.
-/

namespace Flow.Spec

open Flow

/-- No loops. Tasks may be retried: all attempts belong to one evaluation. -/
def Simple (g : Graph) : Prop := ∀ t ∈ g.tasks, t.kind = .basic

/-- Task `a` comes before task `t`: a path of at least one link leads from `a` to `t`. -/
def Before (g : Graph) (a t : TaskId) : Prop := ∃ l ∈ g.links, l.src = a ∧ Path g l.dst t

/-- What is known about the data of the main flow: the attributes `data`, and for each of them the task that computes it, if any. -/
structure DataPlan where
  data : String → Prop
  owner : String → Option TaskId

/-- The data that are fixed before task `t` is executed: those that no task computes, and those computed by tasks before `t`. -/
def DataPlan.Known (p : DataPlan) (g : Graph) (t : TaskId) (k : String) : Prop :=
  p.data k ∧ ∀ a, p.owner k = some a → Before g a t

/-- In the first `n` steps of this execution data of the main flow change only when the task that computes them is executed. -/
def DataPlan.Kept (p : DataPlan) (env : Env) (run : Nat → Eng) (n : Nat) : Prop :=
  ∀ m < n, ∀ k, p.data k → attrAt (run (m + 1)) 0 k ≠ attrAt (run m) 0 k →
    ∃ o t e' r, p.owner k = some t.id ∧ Evaluates env (run m) 0 o t e' r

/-- How often task `t` of the main flow was evaluated in the first `n` steps. Each round of a loop is an evaluation, and so is the
resumption of a task after the flow it called has ended. -/
noncomputable def roundAt (env : Env) (run : Nat → Eng) (t : TaskId) : Nat → Nat
  | 0 => 0
  | n + 1 => roundAt env run t n + open Classical in if ∃ o e' r, Evaluates env (run n) 0 o ⟨false, t⟩ e' r then 1 else 0

/-- Two evaluations of task `t`, leading from `e` to `e1` with result `r` and from `f` to `f1` with result `q`, agree: both succeed, both
fail, both are to be followed by another round of a loop or both are unfinished; both or none ask to end the flow; the data computed by the task are the same; if they succeed, the conditions of
the links of the task are the same. -/
structure DataPlan.Agree (p : DataPlan) (env env' : Env) (g : Graph) (t : TaskId) (e e1 : Eng) (r : Eng.EvalOut) (f f1 : Eng) (q : Eng.EvalOut) : Prop where
  done : r = .res .done ↔ q = .res .done
  failed : (∃ x, r = .err x) ↔ ∃ x, q = .err x
  again : r = .res .again ↔ q = .res .again
  returns : (∃ I, e1.insts[0]? = some I ∧ I.force = true) ↔ ∃ I, f1.insts[0]? = some I ∧ I.force = true
  data : ∀ k, p.data k → p.owner k = some t → attrAt (e.step env) 0 k = attrAt (f.step env') 0 k
  links : r = .res .done → ∀ l ∈ g.toLinks t, env.link e1 0 l = env'.link f1 0 l

/-- In two executions every task computes the same from the same data: evaluations of a task, in the same round, that find the same known data
and the same data computed by earlier rounds agree. -/
def DataPlan.Functional (p : DataPlan) (env env' : Env) (g : Graph) (run run' : Nat → Eng) (n n' : Nat) : Prop :=
  ∀ m < n, ∀ m' < n', ∀ t o o' e1 f1 r q, Evaluates env (run m) 0 o ⟨false, t⟩ e1 r → Evaluates env' (run' m') 0 o' ⟨false, t⟩ f1 q →
    roundAt env run t m = roundAt env' run' t m' →
    (∀ k, p.Known g t k ∨ (p.data k ∧ p.owner k = some t) → attrAt (run m) 0 k = attrAt (run' m') 0 k) → p.Agree env env' g t (run m) e1 r (run' m') f1 q

end Flow.Spec
