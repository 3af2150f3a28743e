import Verif.Proofs.Retry
import Verif.Spec.Plain

/-!
C19: retrying a failed activity.
-/

namespace Flow
open Spec

variable {env : Env} {k : Bool} {i o : Nat}

/-- C19: an evaluation of a task is a sequence of attempts. Every attempt but the last failed with a retriable error; the
number of attempts after the first is at most the number of retries left and is exactly that number if even the last
attempt failed with a retriable error; the reported outcome is that of the last attempt. The only exception: if the retry
count of the task cannot be determined after the first attempt, that error is reported. Between the attempts nothing happens. -/
theorem C19_attempts {e : Eng} {ob : Obj} {td : TaskDef} (ho : e.obj? i o = some ob) (htd : e.taskDef? i ob.task = some td) :
    ∃ a as, a.before = e ∧ TriedAs env i o td a as (e.evalActivity env i o).2 ∧
      Unseen (lastAttempt a as).after (e.evalActivity env i o).1 := by
  let a : Attempt := ⟨e, (e.evalOnce env i o).1, (e.evalOnce env i o).2⟩
  have hreal : a.real env i o := rfl
  -- the configuration is the same after the attempt
  have hev := Eng.Evals.evalOnce (env := env) (i := i) (o := o) e
  obtain ⟨ob1, ho1, ht1⟩ := hev.obj_task ho
  have hret : a.after.hasRetry i o = td.retry := by
    obtain ⟨I, hI⟩ := Eng.inst_of_obj ho
    unfold Eng.hasRetry
    show (match (e.evalOnce env i o).1.obj? i o with | none => _ | some ob => _) = _
    rw [ho1]
    dsimp only
    rw [ht1.1]
    have := hev.taskDef? hI ob.task
    rw [this, htd]
  refine ⟨a, ?_⟩
  have hsplit : e.evalOnce env i o = (a.after, a.result) := rfl
  cases hr : a.result with
  | ok b =>
    have hna : ¬ a.again := by rintro ⟨err, h1, _⟩; rw [hr] at h1; cases h1
    have hE : e.evalActivity env i o = (a.after, a.result) := by unfold Eng.evalActivity; rw [hsplit, hr]
    rw [hE]
    exact ⟨[], rfl, .all (as := []) (n := 0) (fun h => absurd h hna) ⟨hreal, fun _ => rfl⟩, Unseen.refl _⟩
  | error err =>
    have hE : e.evalActivity env i o = if err.retriable && a.after.hasRetry i o then
        match Eng.getRetry env a.after i o with
        | (e2, .error rerr) => (e2, .error rerr)
        | (e2, .ok c) => if 0 < c then Eng.retryFrom env (c.toNat - 1) e2 i o else (e2, .error err)
        else (a.after, .error err) := by
      conv => lhs; unfold Eng.evalActivity
      rw [hsplit, hr]
      rfl
    by_cases hc : (err.retriable && a.after.hasRetry i o) = true
    · rw [if_pos hc] at hE
      simp only [Bool.and_eq_true] at hc
      have hagain : a.again := ⟨err, hr, hc.1⟩
      have htr : td.retry = true := hret ▸ hc.2
      have hg := Eng.getRetry_spec (env := env) (i := i) (o := o) a.after
      have hgl := Eng.LocalE.getRetry (env := env) (i := i) (o := o) a.after
      have hgu := Spec.Unseen.getRetry (env := env) a.after i o
      generalize Eng.getRetry env a.after i o = q at hE hg hgl hgu
      obtain ⟨e2, rc⟩ := q
      cases rc with
      | error rerr =>
        dsimp only at hg hE hgu
        rw [hE]
        exact ⟨[], rfl, .none hreal hagain (by unfold retriesOf; rw [if_pos htr, ← hg]; rfl), hgu⟩
      | ok c =>
        dsimp only at hg hE hgl
        have hlim : retriesOf env a.after i o td = .ok c.toNat := by
          unfold retriesOf; rw [if_pos htr, ← hg]; rfl
        by_cases hpos : 0 < c
        · rw [if_pos hpos] at hE
          obtain ⟨b, bs, h1, h2, h3, h4⟩ := Eng.retryFrom_retried (env := env) (i := i) (o := o) (c.toNat - 1) e2
          have hret' : Retried env i o a (b :: bs) c.toNat := by
            have : c.toNat = (c.toNat - 1) + 1 := by omega
            rw [this]
            exact ⟨hreal, hagain, by rw [h2]; exact Unseen.trans hgu (.setRetry ..), h1⟩
          rw [hE]
          refine ⟨b :: bs, rfl, ?_, ?_⟩
          · rw [← h4]
            exact .all (as := b :: bs) (fun _ => hlim) hret'
          · show Unseen (lastAttempt b bs).after _
            rw [h3]; exact Unseen.refl _
        · rw [if_neg hpos] at hE
          rw [hE, ← hr]
          exact ⟨[], rfl, .all (as := []) (fun _ => hlim) ⟨hreal, fun _ => by omega⟩, hgu⟩
    · rw [if_neg hc] at hE
      rw [hE, ← hr]
      refine ⟨[], rfl, .all (as := []) (n := 0) (fun hag => ?_) ⟨hreal, fun _ => rfl⟩, Unseen.refl _⟩
      obtain ⟨err', h1, h2⟩ := hag
      rw [hr] at h1; cases h1
      have : td.retry ≠ true := by
        intro ht; apply hc; rw [h2, hret, ht]; rfl
      unfold retriesOf; rw [if_neg this]

/-- C19: a task configured with at most `n` retries, and without more than that left from before, has its activity called
at most `n + 1` times by one evaluation. -/
theorem C19_at_most {e : Eng} {ob : Obj} {td : TaskDef} (ho : e.obj? i o = some ob) (htd : e.taskDef? i ob.task = some td)
    (n : Nat) (hn : ∀ e' c, env.retryCount e' i o = .ok c → c ≤ n) (hl : ∀ c, ob.retry = some c → c ≤ n) :
    callCount (e.evalActivity env i o).1 i ≤ callCount e i + n + 1 := by
  obtain ⟨a, as, hb, h⟩ := C19_attempts (env := env) ho htd
  obtain ⟨ht, hu⟩ := h
  have hcnt : callCount (e.evalActivity env i o).1 i = callCount (lastAttempt a as).after i := by
    unfold callCount; rw [hu.calls]
  have h1 := Eng.evalOnce_count (env := env) (i := i) (o := o) e
  generalize (e.evalActivity env i o).2 = res at ht
  cases ht with
  | none hreal hag hno =>
    have hr : Eng.evalOnce env e i o = (a.after, a.result) := hb ▸ hreal
    rw [hcnt]
    rw [hr] at h1
    exact Nat.le_trans h1 (by omega)
  | @all _ m hm hret =>
    obtain ⟨h2, h3⟩ := Eng.retried_count hret
    rw [hb] at h3
    have hlim : as = [] ∨ m ≤ n := by
      cases as with
      | nil => exact Or.inl rfl
      | cons b bs =>
        right
        have hm := hm hret.2.1
        have hr : Eng.evalOnce env e i o = (a.after, a.result) := hb ▸ hret.real
        have h2 := (Eng.evalOnce_once (env := env) ho htd).retry
        rw [hr, ho] at h2
        dsimp only at h2
        unfold retriesOf at hm
        split at hm
        · unfold retriesLeft at hm
          rw [h2] at hm
          cases hro : ob.retry with
          | none =>
            simp only [Option.bind_some, hro] at hm
            cases hc : env.retryCount a.after i o with
            | error x => rw [hc] at hm; cases hm
            | ok c => rw [hc] at hm; cases hm; have := hn _ c hc; omega
          | some c =>
            simp only [Option.bind_some, hro] at hm
            cases hm; have := hl _ hro; omega
        · cases hm; omega
    rcases hlim with rfl | hlim
    · rw [hcnt]
      simp only [List.length_nil] at h3
      omega
    · omega

/-- One task that may be retried. -/
def retryFlow (act : ActKind) : Def := { name := "f", main := ⟨[{ tk "A" with retry := true, act := act }], []⟩ }
/-- Its activity always fails with a retriable error; two retries are configured. -/
def alwaysRetriable : Env :=
  { tableEnv (fun _ => { res := .err (.act "no" "" .null "" true) }) (fun _ => .ok true) with retryCount := fun _ _ _ => .ok 2 }

-- non-trivial instance: two retries, so three calls, and the flow fails
example : (calls (Eng.run alwaysRetriable (Eng.init alwaysRetriable "1" "u" (retryFlow .user) []) 10) 0).length = 3 := by decide
example : flowStatus (Eng.run alwaysRetriable (Eng.init alwaysRetriable "1" "u" (retryFlow .user) []) 10) 0 = some .failed := by
  decide

/-- The task starts a subflow whose only task fails with an error that is not retriable; two retries are configured. -/
def subFails : Env :=
  { tableEnv (fun _ => { res := .err (.act "no" "" .null "" false) }) (fun _ => .ok true) with
    retryCount := fun _ _ _ => .ok 2, defs := fun _ => .ok (some { name := "s", main := ⟨[tk "X"], []⟩ }) }
/-- The run of this flow. -/
def subFailsRun (n : Nat) : Eng := Eng.run subFails (Eng.init subFails "1" "u" (retryFlow (.subflow "s")) []) n

/-- "Only retriable errors are retried" does not hold when the outcome of an asynchronous activity is retried: every
error of this flow is not retriable, and nevertheless the subflow is started three times. -/
theorem C19_negation : (calls (subFailsRun 20) 0).filter (fun ev => match ev with | .evalAct .. => true | _ => false) =
      [.evalAct 0 ⟨false, "A"⟩, .evalAct 0 ⟨false, "A"⟩, .evalAct 0 ⟨false, "A"⟩] ∧
    (∀ e i o err, (subFails.act e i o).res = .err err → err.retriable = false) ∧
    flowStatus (subFailsRun 20) 0 = some .failed := by
  refine ⟨by decide, ?_, by decide⟩
  intro e i o err h
  have : (ActRes.err (.act "no" "" .null "" false)) = .err err := h
  cases this
  rfl

end Flow
