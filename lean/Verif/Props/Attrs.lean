import Verif.Proofs.Attrs
import Verif.Proofs.Run
import Verif.Spec.Plain

/-
C82: values stored in a flow stay available.
-/

namespace Flow

open Spec

variable {env : Env} {i o : Nat} {t : TaskRef} {td : TaskDef} {k : String}

/-- C82: the attribute of a flow instance changes in a step only if the step evaluates a task of this very instance that writes
the attribute. -/
theorem C82_changes {e : Eng} (hr : Reachable env e) {I : Inst} (hI : e.insts[i]? = some I)
    (hc : attrAt (e.step env) i k ≠ attrAt e i k) :
    ∃ o t e' r td, Evaluates env e i o t e' r ∧ e.taskDef? i t = some td ∧ Writes env i o t td k :=
  Eng.attr_written hI (Eng.engOK_reachable hr).length_pos hc

/-- The next step writes the attribute `k` of flow instance `i`. -/
def WrittenBy (env : Env) (e : Eng) (i : Nat) (k : String) : Prop :=
  ∃ o t e' r td, Evaluates env e i o t e' r ∧ e.taskDef? i t = some td ∧ Writes env i o t td k

theorem instance_stays {e : Eng} (hr : Reachable env e) (hi : i < e.insts.length) : i < (e.step env).insts.length := by
  have := (Eng.Ops.step (env := env) (Eng.engOK_reachable hr).length_pos).length
  omega

/-- C82: the attribute keeps its value as long as no task that writes it is evaluated. -/
theorem C82_kept {e : Eng} (hr : Reachable env e) (hi : i < e.insts.length) (n : Nat)
    (hn : ∀ m < n, ¬WrittenBy env (Eng.run env e m) i k) : attrAt (Eng.run env e n) i k = attrAt e i k := by
  have h : ∀ m, Reachable env (Eng.run env e m) ∧ i < (Eng.run env e m).insts.length := by
    intro m
    induction m with
    | zero => exact ⟨hr, hi⟩
    | succ m ih => exact ⟨Eng.reachable_step ih.1, instance_stays ih.1 ih.2⟩
  induction n with
  | zero => rfl
  | succ n ih =>
    refine Eq.trans ?_ (ih fun m hm => hn m (by omega))
    obtain ⟨I, hI⟩ : ∃ I, (Eng.run env e n).insts[i]? = some I := ⟨_, List.getElem?_eq_getElem (h n).2⟩
    exact Classical.byContradiction fun hc => hn n (by omega) (C82_changes (h n).1 hI hc)

/-- C82: when an execution of a task that does not accumulate its outputs is finished, the values of its output mapping, computed
from the outputs of the task, are stored; other attributes are not changed by the mapping. -/
theorem C82_mapped {e e' : Eng} {r : Eng.EvalOut} (hev : Evaluates env e i o t e' r) (htd : e.taskDef? i t = some td)
    (hn : ¬Accumulating td) (hf : FinishesIteration env td e i o r) : ∃ c, Mapped env i o t c e' :=
  Eng.evaluates_mapped hev htd hn hf

/-- C82: what the output mapping of a finished task stored is what every task finds that is executed before another task writes
the attribute. -/
theorem C82_available {e e' : Eng} (hr : Reachable env e) {r : Eng.EvalOut} (hev : Evaluates env e i o t e' r)
    (htd : e.taskDef? i t = some td) (hn : ¬Accumulating td) (hf : FinishesIteration env td e i o r) :
    ∃ c, Holds c i o t ∧ outputsOf c i o = outputsOf e' i o ∧ ∀ vals, env.outMap c i o = some (vals, none) → vals.keys.Nodup →
      ∀ k v, AMap.get? vals k = some v → k ≠ "_E" → k ≠ "_E." ++ t.id →
        ∀ n, (∀ m, 0 < m → m ≤ n → ¬WrittenBy env (Eng.run env e m) i k) → attrAt (Eng.run env e (n + 1)) i k = some v := by
  obtain ⟨c, h0, h1, h2⟩ := C82_mapped hev htd hn hf
  refine ⟨c, h0, h1, fun vals hv hnd k v hk k1 k2 n hw => ?_⟩
  have h3 : attrAt e' i k = some v := by
    rcases h2 with h2 | ⟨vals', h2, h4⟩
    · rw [hv] at h2; cases h2
    · rw [hv] at h2; cases h2
      exact (h4 k v).1 hnd hk
  have hi' : ∃ J, e'.insts[i]? = some J ∧ AMap.get? J.attrs k = some v := by
    unfold Spec.attrAt at h3
    cases hJ : e'.insts[i]? with
    | none => rw [hJ] at h3; cases h3
    | some J => rw [hJ] at h3; exact ⟨J, rfl, h3⟩
  obtain ⟨J, hJ, hj⟩ := hi'
  obtain ⟨⟨name, hstep⟩, _⟩ := Eng.evaluates_step hev
  obtain ⟨J', hJ', hj'⟩ := Eng.attrs_handleResult (env := env) (i := i) (o := o) k1.symm k2.symm e' name r i J hJ
  rw [← hstep] at hJ'
  have h4 : attrAt (e.step env) i k = some v := by
    unfold Spec.attrAt; rw [hJ']; exact hj'.trans hj
  have hrs := Eng.reachable_step hr
  have hrun : ∀ m, Eng.run env e (m + 1) = Eng.run env (e.step env) m := fun m => by rw [Nat.add_comm, Eng.run_add]; rfl
  rw [hrun, C82_kept hrs (List.getElem?_eq_some_iff.mp hJ').1 n fun m hm => by
    rw [← hrun]; exact hw (m + 1) (by omega) (by omega)]
  exact h4

/-! ### Examples -/

/-- A, B and C in a row. -/
def storing : Def := { name := "f", main := ⟨[tk "A", tk "B", tk "C"], deps 1 [("A", "B"), ("B", "C")]⟩ }

/-- A maps its output n to x, B stores y, C stores nothing. -/
def storedEnv : Env :=
  { plainEnv with
    act := fun e i o =>
      if (e.obj? i o).map (·.task.id) = some "A" then { outputs := some (some [("n", .int 5)]) }
      else if (e.obj? i o).map (·.task.id) = some "B" then { sets := [("y", .int 2)] } else {}
    outMap := fun e i o => if (e.obj? i o).map (·.task.id) = some "A" then some ([("x", .int 5)], none) else none }

def storedRun (n : Nat) : Eng := Eng.run storedEnv (Eng.init storedEnv "1" "u" storing []) n

def intAt (e : Eng) (k : String) : Option Int := (attrAt e 0 k).bind fun v => match v with
  | .int n => some n
  | _ => none

/-- Only A writes x. -/
theorem stored_writes {i o : Nat} {t : TaskRef} {td : TaskDef} (h : Writes storedEnv i o t td "x") : t.id = "A" := by
  have hid : ∀ {c : Eng}, Holds c i o t → (c.obj? i o).map (·.task.id) = some t.id := fun {c} ⟨ob, h1, h2⟩ => by rw [h1, ← h2]; rfl
  have hne : ∀ (a : String) (l : List Char), a.toList = '_' :: l → "x" ≠ a := fun a l h hc => by subst hc; simp at h
  cases h with
  | act c hc v h =>
    simp only [storedEnv, hid hc] at h
    split at h
    · cases h
    · split at h
      · simp [AMap.get?] at h
      · cases h
  | post c hc v h => cases h
  | out c hc vals err v hv h =>
    simp only [storedEnv, hid hc] at hv
    split at hv
    · rename_i ha; exact Option.some.inj ha
    · cases hv
  | accumulated ha h => exact absurd h (hne _ _ (by simp; rfl))
  | error h => exact absurd h (by decide)
  | taskError h => exact absurd h (hne _ _ (by simp; rfl))

-- the hypotheses of `C82_mapped` and `C82_available` hold for A
example : ∃ e' td, Evaluates storedEnv (storedRun 0) 0 0 ⟨false, "A"⟩ e' (.res .done) ∧ (storedRun 0).taskDef? 0 ⟨false, "A"⟩ = some td ∧
    ¬Accumulating td ∧ FinishesIteration storedEnv td (storedRun 0) 0 0 (.res .done) :=
  ⟨_, tk "A", ⟨⟨⟨1, 0, 0⟩, rfl, rfl, rfl, rfl⟩, rfl⟩, rfl, fun ⟨_, h, _⟩ => (nomatch h), _, rfl, (fun h => nomatch h), fun _ => .inr ⟨rfl, fun h => nomatch h⟩⟩

-- x is stored by A and is still there when C has been executed; y is stored by B
example : [0, 1, 4, 5, 9].map (fun n => (intAt (storedRun n) "x", intAt (storedRun n) "y")) =
    [(none, none), (some 5, none), (some 5, none), (some 5, some 2), (some 5, some 2)] := by
  decide +kernel

/-- The task of the work item that the next step takes. -/
def takes (env : Env) (e : Eng) : Option TaskId := (Spec.next env e).bind fun w => (e.obj? w.inst w.obj).map (·.task.id)

theorem takes_of {e e' : Eng} {r : Eng.EvalOut} (h : Evaluates env e i o t e' r) : takes env e = some t.id := by
  obtain ⟨⟨w, a, rfl, rfl, b⟩, c⟩ := h
  unfold takes
  rw [a]
  dsimp only [Option.bind]
  cases ho : e.obj? w.inst w.obj with
  | none => rw [ho] at c; cases c
  | some ob => rw [ho] at c; cases c; rfl

-- the hypothesis of `C82_kept` and `C82_available`: after A was executed no task is evaluated that writes x
example : ∀ m < 9, ¬WrittenBy storedEnv (storedRun (1 + m)) 0 "x" := by
  rintro m hm ⟨o, t, e', r, td, h1, _, h3⟩
  have h2 := takes_of h1
  rw [stored_writes h3] at h2
  have h4 : ∀ m < 9, takes storedEnv (storedRun (1 + m)) ≠ some "A" := by decide +kernel
  exact h4 m hm h2

-- the step that evaluates B writes y
example : WrittenBy storedEnv (storedRun 4) 0 "y" :=
  ⟨1, ⟨false, "B"⟩, _, _, tk "B", ⟨⟨⟨2, 0, 1⟩, rfl, rfl, rfl, rfl⟩, rfl⟩, rfl, .act (storedRun 4) ⟨_, rfl, rfl⟩ (.int 2) rfl⟩

end Flow
