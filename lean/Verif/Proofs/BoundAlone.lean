import Verif.Proofs.BoundRun
import Verif.Proofs.GraphUse
import Verif.Spec.Cover

/-
Flows whose tasks call no flows: no instance is added, and if there are no loops either no round is followed by another one.
-/

namespace Flow.Bnd
open Spec Eng

variable {env : Env}

theorem subOf_none {d : Def} (hd : NoSubflows d) {e : Eng} {I : Inst} {i o : Nat} (hI : e.insts[i]? = some I) (hD : I.defn = d) :
    e.subOf i o = none := by
  unfold Eng.subOf
  cases ho : e.obj? i o with
  | none => rfl
  | some ob =>
    dsimp only
    cases ht : e.taskDef? i ob.task with
    | none => rfl
    | some td =>
      dsimp only
      unfold Eng.taskDef? at ht
      rw [hI] at ht
      have := hd ob.task td (hD ▸ ht)
      revert this
      cases td.act with
      | subflow u => intro h; exact absurd rfl (h u)
      | user => intro _; rfl
      | async => intro _; rfl

theorem one_step {d : Def} (hd : NoSubflows d) {e : Eng} (h1 : e.insts.length = 1) {I : Inst} (hI : e.insts[0]? = some I) (hD : I.defn = d) :
    (e.step env).insts.length = 1 := by
  by_cases hs : e.stack = []
  · cases hn : next env e with
    | none => rw [step_idle hs hn (by omega)]; exact h1
    | some w =>
      rw [step_next hn]
      cases ho : outcome env (afterPop env e w) w.inst w.obj with
      | none => rw [exec_none ho]; exact h1
      | some p =>
        obtain ⟨e', r⟩ := p
        obtain ⟨ob, hob⟩ : ∃ ob, (afterPop env e w).obj? w.inst w.obj = some ob := by
          cases hx : (afterPop env e w).obj? w.inst w.obj with
          | none => unfold Spec.outcome at ho; rw [hx] at ho; cases ho
          | some ob => exact ⟨ob, rfl⟩
        obtain ⟨td, htd, hex⟩ := exec_outcome hob ho
        rw [hex, GraphM.handleResult_len]
        obtain ⟨e1, hev, he⟩ := outcome_evals ho
        have hw : w.inst = 0 := by
          have : w.inst < (afterPop env e w).insts.length := lt_of_obj? hob
          have h2 : (afterPop env e w).insts.length = 1 := h1
          omega
        rw [subOf_none (I := I) hd (by rw [hw]; exact hI) hD] at hev
        have hl : e1.insts.length = 1 := (Grown.evals hev).trans h1
        rcases he with rfl | ⟨st, rfl⟩
        · exact hl
        · exact (modI_length _ _ _).trans hl
  · exact (EnterFrame.step hs).len.trans h1

theorem one_run {d : Def} (hd : NoSubflows d) (id uri : String) (ins : AMap String Val) (n : Nat) :
    (run env (init env id uri d ins) n).insts.length = 1 := by
  induction n with
  | zero => exact (StartFrame.startInstance _ _ _).len
  | succ n ih =>
    obtain ⟨I, hI⟩ := root_exists (env := env) (id := id) (uri := uri) (d := d) (ins := ins) n
    exact one_step hd ih hI (root_defn hI)

theorem no_restart {d : Def} (hd : NoSubflows d) (id uri : String) (ins : AMap String Val) (n : Nat) :
    ¬ Restarts env (run env (init env id uri d ins) n) := by
  rintro ⟨i, o, t, e', r, ob, _, _, _, h⟩
  have h1 := one_run (env := env) hd id uri ins n
  have h2 := one_run (env := env) hd id uri ins (n + 1)
  have h3 : (step env (run env (init env id uri d ins) n)).insts.length = 1 := h2
  omega

theorem evalBasic_once (e : Eng) (i o : Nat) : isAgain (e.evalBasic env i o).2 = false := by
  unfold Eng.evalBasic
  split <;> rfl

theorem postBasic_once (e : Eng) (i o : Nat) : isAgain (e.postBasic env i o).2 = false := by
  unfold Eng.postBasic
  split
  · rfl
  · split
    · split
      · rfl
      · split
        · split <;> rfl
        · rfl
    · rfl

theorem no_loop {d : Def} (hd : NoSubflows d) (hl : NoLoops d) (id uri : String) (ins : AMap String Val) (n : Nat) :
    loopsBack env (run env (init env id uri d ins) n) = false := by
  unfold Spec.loopsBack
  cases hn : next env (run env (init env id uri d ins) n) with
  | none => rfl
  | some w =>
    refine (Option.any_some ..).trans ?_
    cases ho : outcome env (afterPop env (run env (init env id uri d ins) n) w) w.inst w.obj with
    | none => rfl
    | some p =>
      show isAgain p.2 = false
      obtain ⟨I, hI⟩ := root_exists (env := env) (id := id) (uri := uri) (d := d) (ins := ins) n
      have h1 := one_run (env := env) hd id uri ins n
      unfold Spec.outcome at ho
      cases hob : (afterPop env (run env (init env id uri d ins) n) w).obj? w.inst w.obj with
      | none => rw [hob] at ho; cases ho
      | some ob =>
        rw [hob] at ho
        dsimp only at ho
        have hw : w.inst = 0 := by
          have h2 : w.inst < (run env (init env id uri d ins) n).insts.length := lt_of_obj? hob
          omega
        cases htd : (afterPop env (run env (init env id uri d ins) n) w).taskDef? w.inst ob.task with
        | none => rw [htd] at ho; cases ho
        | some td =>
          rw [htd] at ho
          dsimp only at ho
          have hk : td.kind = .basic := by
            have h3 : (run env (init env id uri d ins) n).taskDef? w.inst ob.task = some td := htd
            unfold Eng.taskDef? at h3
            rw [hw, hI] at h3
            have h4 : I.defn.task? ob.task = some td := h3
            exact hl _ _ (root_defn hI ▸ h4)
          have he : ∀ f : Eng, isAgain (f.evalKind env w.inst w.obj td).2 = false := by
            intro f
            unfold Eng.evalKind
            rw [hk]
            exact evalBasic_once _ _ _
          have hp : ∀ f : Eng, isAgain (f.postKind env w.inst w.obj td).2 = false := by
            intro f
            unfold Eng.postKind
            rw [hk]
            exact postBasic_once _ _ _
          split at ho
          · rw [← Option.some.inj ho]; exact hp _
          · split at ho
            · cases ho
            · rw [← Option.some.inj ho]; exact he _

theorem no_rounds {d : Def} (hd : NoSubflows d) (hl : NoLoops d) (id uri : String) (ins : AMap String Val) (n : Nat) :
    loopRounds env (init env id uri d ins) n = 0 := by
  unfold Spec.loopRounds
  rw [List.countP_eq_zero]
  intro m _
  rw [no_loop hd hl]
  exact Bool.false_ne_true

end Flow.Bnd
