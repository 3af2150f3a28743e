import Verif.Proofs.BoundAlone
import Verif.Proofs.Endless
import Verif.Props.Calls

/-!
# C97: executions of flows without circles come to rest
-/

namespace Flow
open Spec

/-- C97: the flow `d` has no circle of links, and neither have the flows it calls, nor do these call each other in circles. Then
there is a bound that depends on the definitions only. Whatever activities, expressions, mappings and retries do, whatever order the
work items are taken in, and even if tasks fail, a handler runs or a flow returns early: after that many steps, not counting the
rounds of loops that are followed by another round, nothing is left to do.

Partial: only as long as no task that waits or has failed starts its flow once more. -/
theorem C97_bound_partial {defs : String → Except Err (Option Def)} {depth : String → Nat} (hl : Layered defs depth) {d : Def}
    (hd : NoCircle d) {k : Nat} (hk : CallsBelow depth k d) :
    ∃ B, ∀ (env : Env), env.defs = defs → ∀ (id uri : String) (ins : AMap String Val) (n : Nat),
      (∀ m, m < n → ¬ Restarts env (Eng.run env (Eng.init env id uri d ins) m)) →
        NothingLeft env (Eng.run env (Eng.init env id uri d ins) n) ∨ n ≤ B + loopRounds env (Eng.init env id uri d ins) n := by
  obtain ⟨W, _, hW⟩ := Bnd.fits_layered hl k d hd hk 0
  refine ⟨Bnd.total d W, ?_⟩
  rintro env rfl id uri ins n hres
  exact Bnd.bound' (Bnd.full_init hW id uri ins) n hres

/-- C97: a flow that calls no flows; no further condition. -/
theorem C97_alone {d : Def} (hd : NoCircle d) (hs : NoSubflows d) :
    ∃ B, ∀ (env : Env) (id uri : String) (ins : AMap String Val) (n : Nat),
      NothingLeft env (Eng.run env (Eng.init env id uri d ins) n) ∨ n ≤ B + loopRounds env (Eng.init env id uri d ins) n := by
  obtain ⟨W, _, hW⟩ := Bnd.fits_of (defs := fun _ => .ok none) hd (fun t td uri d' h1 h2 _ => absurd h2 (hs t td h1 uri)) 0
  refine ⟨Bnd.total d W, fun env id uri ins n => ?_⟩
  have hW2 : Bnd.Fits env.defs d W := by
    cases hW with
    | mk sub hR hE hH _ _ _ =>
      exact .mk sub hR hE hH (fun t td uri _ h1 h2 _ => absurd h2 (hs t td h1 uri)) (fun t td uri _ h1 h2 _ => absurd h2 (hs t td h1 uri))
        (fun t td uri _ h1 h2 _ => absurd h2 (hs t td h1 uri))
  exact Bnd.bound' (Bnd.full_init hW2 id uri ins) n (fun m _ => Bnd.no_restart hs id uri ins m)

/-- C97: a flow without loops that calls no flows is at rest after a number of steps that depends on the flow only, whether its
activities are retried or not. -/
theorem C97_plain {d : Def} (hd : NoCircle d) (hs : NoSubflows d) (hb : NoLoops d) :
    ∃ B, ∀ (env : Env) (id uri : String) (ins : AMap String Val) (n : Nat), B < n → NothingLeft env (Eng.run env (Eng.init env id uri d ins) n) := by
  obtain ⟨B, h⟩ := C97_alone hd hs
  refine ⟨B, fun env id uri ins n hn => ?_⟩
  rcases h env id uri ins n with h1 | h1
  · exact h1
  · rw [Bnd.no_rounds hs hb] at h1
    omega

/-- C97: once nothing is left to do, nothing is done any more. -/
theorem C97_stays {env : Env} {e : Eng} (h : NothingLeft env e) (n : Nat) : NothingLeft env (Eng.run env e n) := Bnd.rest_run h n

namespace BoundCase

open GraphCase

/-- Sufficient for `¬ Restarts`, and computable. -/
def startsFresh (env : Env) (e : Eng) : Bool :=
  decide ((e.step env).insts.length ≤ e.insts.length) ||
    (next env e).all fun w => (e.obj? w.inst w.obj).all fun ob => decide (ob.status ≠ .waiting ∧ ob.status ≠ .failed)

theorem no_restart_of {env : Env} {e : Eng} (h : startsFresh env e = true) : ¬ Restarts env e := by
  rintro ⟨i, o, t, e', r, ob, ⟨⟨w, hn, hi, ho, _⟩, _⟩, hob, hst, hlen⟩
  unfold startsFresh at h
  rw [Bool.or_eq_true] at h
  rcases h with h | h
  · have := of_decide_eq_true h
    omega
  · rw [hn, Option.all_some, hi, ho, hob, Option.all_some] at h
    have := of_decide_eq_true h
    rcases hst with hst | hst
    · exact this.1 hst
    · exact this.2 hst

theorem noSubflows_of {d : Def} (h : (allTasks d).all (fun t => t.act.sub?.isNone) = true) : NoSubflows d := by
  intro t td ht u hu
  have := List.all_eq_true.mp h td (Bnd.mem_allTasks ht)
  rw [hu] at this
  cases this

theorem noLoops_of {d : Def} (h : (allTasks d).all (fun t => decide (t.kind = .basic)) = true) : NoLoops d :=
  fun _ td ht => of_decide_eq_true (List.all_eq_true.mp h td (Bnd.mem_allTasks ht))

-- non-trivial instance of `C97_bound_partial`: a flow that calls a flow that calls a flow; eight steps, then nothing is left
example : Layered nestedSubs.defs nestedDepth ∧ NoCircle nestedFlow ∧ CallsBelow nestedDepth 2 nestedFlow ∧
    (∀ m, m < 21 → ¬ Restarts nestedSubs (Eng.run nestedSubs (Eng.init nestedSubs "1" "u" nestedFlow []) m)) ∧
    (Eng.run nestedSubs (Eng.init nestedSubs "1" "u" nestedFlow []) 7).stack ≠ [] ∧ nestedEnd.insts.length = 3 ∧ NothingLeft nestedSubs nestedEnd := by
  refine ⟨⟨fun u d hd => ?_, fun u d hd t ht v hv => ?_⟩, ⟨fun _ => 0, fun l hl => nomatch hl⟩, ?_, fun m hm => no_restart_of ?_, by decide, by decide, ⟨rfl, rfl⟩⟩
  · simp only [nestedSubs] at hd
    split at hd
    · cases hd; exact ⟨fun _ => 0, fun l hl => nomatch hl⟩
    · split at hd
      · cases hd; exact ⟨fun _ => 0, fun l hl => nomatch hl⟩
      · cases hd
  · simp only [nestedSubs] at hd
    split at hd
    · rename_i hu
      cases hd
      rw [List.mem_singleton.1 ht] at hv
      cases hv
      simp [nestedDepth, hu]
    · split at hd
      · cases hd
        rw [List.mem_singleton.1 ht] at hv
        cases hv
      · cases hd
  · intro t ht u hu
    rw [List.mem_singleton.1 ht] at hu
    cases hu
    decide
  · revert m
    decide

-- non-trivial instance of `C97_plain`: a flow without circles in which a task is executed twice and a skipped task is executed
example : NoCircle revived ∧ NoSubflows revived ∧ NoLoops revived := by
  exact ⟨⟨looseRank, by decide⟩, noSubflows_of rfl, noLoops_of rfl⟩

-- non-trivial instance of `C97_alone`: a loop of three rounds
example : NoCircle rounds ∧ NoSubflows rounds ∧ loopRounds roundsEnv (Eng.init roundsEnv "1" "u" rounds []) 7 = 2 := by
  exact ⟨⟨fun _ => 0, fun l hl => nomatch hl⟩, noSubflows_of rfl, by decide⟩

/-- C97 is false in general: a flow without circles that calls one flow without circles, without loops and retries, and that is
never at rest. In the called flow two tasks fail. Each failure schedules the task that made the call; the first work item ends it
with an error, which the flow follows, and the second one makes the call again. -/
theorem C97_negation : NoCircle endless ∧ NoLoops endless ∧ Layered endlessEnv.defs (fun _ => 0) ∧ CallsBelow (fun _ => 0) 1 endless ∧
    (∀ uri d, endlessEnv.defs uri = .ok (some d) → NoLoops d) ∧
    (∀ t ∈ allTasks endless ++ allTasks pair, t.retry = false) ∧
    ∀ n, ¬ NothingLeft endlessEnv (Eng.run endlessEnv (Eng.init endlessEnv "1" "u" endless []) n) := by
  have hpair : ∀ uri d, endlessEnv.defs uri = .ok (some d) → d = pair := by
    intro uri d hd
    simp only [endlessEnv] at hd
    split at hd
    · cases hd; rfl
    · cases hd
  refine ⟨⟨fun t => if t = "B" then 1 else 0, by decide⟩, noLoops_of rfl, ⟨fun u d hd => ?_, fun u d hd t ht v hv => ?_⟩, fun _ _ _ _ => Nat.zero_lt_one,
    fun u d hd => ?_, by decide, fun n => ?_⟩
  · rw [hpair u d hd]; exact ⟨fun _ => 0, fun l hl => nomatch hl⟩
  · rw [hpair u d hd] at ht
    have : ∀ t ∈ allTasks pair, t.act = .user := by decide
    rw [this t ht] at hv
    cases hv
  · rw [hpair u d hd]; exact noLoops_of rfl
  · have hp : ∀ n, Phase (Eng.run endlessEnv (Eng.init endlessEnv "1" "u" endless []) (8 + n)) := by
      intro n
      induction n with
      | zero => obtain ⟨y, h⟩ := reached; exact (show _ = _ from h) ▸ Phase.p0 y
      | succ n ih => exact ih.step
    intro hn
    have h8 := C97_stays hn 8
    rw [← Eng.run_add, Nat.add_comm] at h8
    exact (hp n).busy h8

end BoundCase

end Flow
