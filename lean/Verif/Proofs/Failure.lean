import Verif.Proofs.Data
import Verif.Proofs.Loops
import Verif.Spec.Failure

/-
Activities that fail.
-/

namespace Flow
open Spec

namespace Eng

variable {env : Env} {i o : Nat} {t : TaskRef} {d : Def} {td : TaskDef}

theorem unable_call (h : Unable env i o td) (e : Eng) (ob : Obj) : ∃ err, (callActivity env e i o ob td).2.1 = .error err := by
  unfold Spec.Unable at h
  unfold Eng.callActivity
  have hact : ∀ (e0 : Eng), (∀ e, Failure (env.act e i o).res) → ∃ err, (match (env.act e0 i o).res with
      | .done => (e0.applyActOut i o (env.act e0 i o), Except.ok true, false)
      | .wait => (e0.applyActOut i o (env.act e0 i o), .ok false, false)
      | .err err => (e0.applyActOut i o (env.act e0 i o), .error (err.setActivity td.name), false)
      | .panic m => (e0.applyActOut i o (env.act e0 i o), .error (.eval td.name "unhandled" m), true) : Eng × Except Err Bool × Bool).2.1 = .error err := by
    intro e0 hf
    have := hf e0
    cases hr : (env.act e0 i o).res with
    | done => rw [hr] at this; exact this.elim
    | wait => rw [hr] at this; exact this.elim
    | err err => exact ⟨_, rfl⟩
    | panic m => exact ⟨_, rfl⟩
  cases ha : td.act with
  | user => rw [ha] at h; exact hact _ h
  | async => rw [ha] at h; exact hact _ h
  | subflow uri =>
    rw [ha] at h
    dsimp only
    unfold Eng.startSubFlow
    cases hd : env.defs uri with
    | error err => exact ⟨_, rfl⟩
    | ok x =>
      cases x with
      | none => exact ⟨_, rfl⟩
      | some d => exact absurd hd (h d)

theorem attempts_unable (hi : NoInterceptors env) (htd : d.task? t = some td) (h : Unable env i o td) :
    Attempts env i o t d (fun x => ∃ err, x = .error err) := by
  refine ⟨fun e => ⟨e, rfl⟩, fun f hf => ?_⟩
  obtain ⟨ob, ho, ht, htd'⟩ := hf.taskDef
  unfold Eng.evalOnce
  rw [ho]; dsimp only
  rw [htd', htd]
  dsimp only
  split
  · exact ⟨_, rfl⟩
  · rename_i e1 heq
    unfold Eng.evalWith
    have h1 : e1.inputInterceptor env i o ob = (e1, true) := by
      unfold Eng.inputInterceptor icpIn; rw [hi]
    rw [h1]
    dsimp only
    rw [if_neg (by decide)]
    split
    · exact ⟨_, rfl⟩
    · have h2 : mocked env e1 i ob = false := by
        unfold Eng.mocked; rw [icpOut_none hi]
      rw [h2, if_neg (by decide)]
      obtain ⟨err, h3⟩ := unable_call h e1 ob
      generalize callActivity env e1 i o ob td = q at h3
      obtain ⟨e3, x, pk⟩ := q
      dsimp only at h3
      subst h3
      exact ⟨_, rfl⟩

/-- If every attempt fails, an iterator does not wait either. -/
theorem evalKind_noWait {e : Eng} (hP : Attempts env i o t d (fun x => ∃ err, x = .error err)) (h : Stands i o t d e) (td : TaskDef) :
    (evalKind env e i o td).2 ≠ .res .wait := by
  by_cases hk : td.kind = .iterator
  · unfold Eng.evalKind Eng.evalIter
    rw [hk]
    dsimp only
    split
    · exact (nomatch ·)
    · exact (nomatch ·)
    · rename_i it _
      split
      · exact (nomatch ·)
      · split
        · exact (nomatch ·)
        · rename_i v _
          obtain ⟨err, h1⟩ := hP.activity (h.modO (fun x => { x with iter := some it.next.1, iteration := some (it.next.1.key, v, it.next.1.current) })
            (fun _ => ⟨rfl, rfl, rfl⟩))
          split
          · exact (nomatch ·)
          · rename_i heq
            rw [heq] at h1
            cases h1
          · exact (nomatch ·)
  · obtain ⟨err, h1⟩ := evalKind_fails hP h td hk
    rw [h1]
    exact (nomatch ·)

/-- An activity that is never finished when it is called. -/
theorem attempts_waiting (hi : NoInterceptors env) (hact : ∀ td, d.task? t = some td → td.act.sub? = none)
    (hw : ∀ e, (env.act e i o).res = .wait) : Attempts env i o t d (fun x => x ≠ .ok true) := by
  refine ⟨fun e => (nomatch ·), fun f hf => ?_⟩
  obtain ⟨ob, ho, ht, htd'⟩ := hf.taskDef
  unfold Eng.evalOnce
  rw [ho]; dsimp only
  rw [htd']
  cases hd : d.task? t with
  | none => exact (nomatch ·)
  | some td =>
    dsimp only
    split
    · exact (nomatch ·)
    · rename_i e1 heq
      unfold Eng.evalWith
      have h1 : e1.inputInterceptor env i o ob = (e1, true) := by
        unfold Eng.inputInterceptor icpIn; rw [hi]
      rw [h1]
      dsimp only
      rw [if_neg (by decide)]
      split
      · exact (nomatch ·)
      · have h2 : mocked env e1 i ob = false := by
          unfold Eng.mocked; rw [icpOut_none hi]
        rw [h2, if_neg (by decide)]
        have h3 : (callActivity env e1 i o ob td).2.1 = .ok false := by
          have := hact td hd
          unfold Eng.callActivity
          cases ha : td.act with
          | subflow u => rw [ha] at this; cases this
          | user => dsimp only; rw [hw]
          | async => dsimp only; rw [hw]
        generalize callActivity env e1 i o ob td = q at h3
        obtain ⟨e3, x, pk⟩ := q
        dsimp only at h3
        subst h3
        exact (nomatch ·)

/-- Resuming an asynchronous activity that fails. -/
theorem postOnce_fails {e : Eng} (hs : Stands i o t d e) (htd : d.task? t = some td) (ha : td.act = .async)
    (hf : ∀ e, Failure (env.post e i o).res) : ∃ err, (postOnce env e i o).2 = .error err := by
  obtain ⟨ob, ho, ht, htd'⟩ := hs.taskDef
  unfold Eng.postOnce
  rw [ho]; dsimp only
  rw [htd', htd]
  dsimp only
  have h1 : ∀ e0, ∃ err, (callPost env e0 i o td).2 = .error err := by
    intro e0
    unfold Eng.callPost
    rw [ha]
    dsimp only
    have := hf e0
    cases hr : (env.post e0 i o).res with
    | done => rw [hr] at this; exact this.elim
    | wait => rw [hr] at this; exact this.elim
    | err err => exact ⟨_, rfl⟩
    | panic m => exact ⟨_, rfl⟩
  obtain ⟨err, h2⟩ := h1 (e.modI i (fun I => { I with trace := .postAct o ob.task :: I.trace }))
  generalize callPost env (e.modI i (fun I => { I with trace := .postAct o ob.task :: I.trace })) i o td = q at h2
  obtain ⟨e1, x⟩ := q
  dsimp only at h2
  subst h2
  exact ⟨_, rfl⟩

theorem postKind_fails {e : Eng} (hs : Stands i o t d e) (htd : d.task? t = some td) (ha : td.act = .async)
    (hf : ∀ e, Failure (env.post e i o).res) (hr : td.retry = false ∨ NoInterceptors env ∧ Unable env i o td) :
    ∃ err, (postKind env e i o td).2 = .err err := by
  have hex : ∀ {e : Eng}, Stands i o t d e → ∃ e1 err, postOnce env e i o = (e1, .error err) ∧ Stands i o t d e1 := by
    intro e hs
    obtain ⟨err, h1⟩ := postOnce_fails hs htd ha hf
    have h2 := hs.keep (postOnce_uncalled (env := env) (t := t) e)
    generalize postOnce env e i o = q at h1 h2
    obtain ⟨e1, x⟩ := q
    dsimp only at h1
    subst h1
    exact ⟨e1, err, rfl, h2⟩
  unfold Eng.postKind
  cases hk : td.kind with
  | basic =>
    dsimp only
    unfold Eng.postBasic
    obtain ⟨e1, err, h1, hs1⟩ := hex hs
    rw [h1]
    dsimp only
    have hret : e1.hasRetry i o = td.retry := by
      obtain ⟨ob, ho, ht, htd'⟩ := hs1.taskDef
      unfold Eng.hasRetry
      rw [ho]; dsimp only
      rw [htd', htd]
    split
    · rename_i hc
      rcases hr with hr | ⟨hi, hu⟩
      · rw [hret, hr, Bool.and_false] at hc; cases hc
      · have h3 := hs1.keep (getRetry_uncalled (env := env) (i := i) (o := o) (t := t) e1)
        generalize getRetry env e1 i o = q at h3
        obtain ⟨e2, y⟩ := q
        cases y with
        | error rerr => exact ⟨_, rfl⟩
        | ok c =>
          dsimp only
          split
          · obtain ⟨err', h4⟩ := (attempts_unable hi htd hu).retry (c.toNat - 1) h3
            generalize retryFrom env (c.toNat - 1) e2 i o = q at h4
            obtain ⟨e3, z⟩ := q
            dsimp only at h4
            subst h4
            exact ⟨_, rfl⟩
          · exact ⟨_, rfl⟩
    · exact ⟨_, rfl⟩
  | iterator =>
    dsimp only
    unfold Eng.postIter
    obtain ⟨e1, err, h1, _⟩ := hex hs
    rw [h1]
    exact ⟨_, rfl⟩
  | doWhile =>
    dsimp only
    unfold Eng.postDoWhile
    obtain ⟨e1, err, h1, _⟩ := hex (hs.keep (LocalE.uncalled (t := t) (LocalE.dwInit e)))
    rw [h1]
    exact ⟨_, rfl⟩

end Eng
end Flow
