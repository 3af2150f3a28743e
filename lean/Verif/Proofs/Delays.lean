import Verif.Proofs.SpanTry
import Verif.Spec.Delays

/-
Pauses of the attempts to evaluate an activity.
-/

namespace Flow
open Spec

theorem pauses_gap (i o : Nat) (why : PauseFor) (ms : Int) : pauses i o why ms = gapOf i o why ms := by
  unfold pauses gapOf
  by_cases h : 0 < ms
  · rw [if_pos h, if_neg (by omega)]
  · rw [if_neg h, if_pos (by omega)]

namespace Eng

variable {env : Env} {T : Timing} {i o : Nat}

theorem timeRetry_tried (ms : Int) (n : Nat) (e : Eng) : ∃ a as, Retried env i o a as n ∧ a.before = e.setRetry i o n ∧
    (lastAttempt a as).after = (retryFrom env n e i o).1 ∧ (lastAttempt a as).result = (retryFrom env n e i o).2 ∧
    timeRetry env ms n e i o = separated (gapOf i o .retry ms) i o (as.length + 1) := by
  induction n generalizing e with
  | zero =>
    refine ⟨⟨e.setRetry i o 0, (evalOnce env (e.setRetry i o 0) i o).1, (evalOnce env (e.setRetry i o 0) i o).2⟩, [], ?_, rfl, rfl, rfl, rfl⟩
    exact ⟨rfl, fun _ => rfl⟩
  | succ n ih =>
    let a : Attempt := ⟨e.setRetry i o ((n : Int) + 1), (evalOnce env (e.setRetry i o (n + 1)) i o).1, (evalOnce env (e.setRetry i o (n + 1)) i o).2⟩
    have hreal : a.real env i o := rfl
    have single : ¬ a.again → retryFrom env (n + 1) e i o = (a.after, a.result) →
        timeRetry env ms (n + 1) e i o = [.attempt i o] → ∃ a as, Retried env i o a as (n + 1) ∧
        a.before = e.setRetry i o ((n + 1 : Nat) : Int) ∧
        (lastAttempt a as).after = (retryFrom env (n + 1) e i o).1 ∧ (lastAttempt a as).result = (retryFrom env (n + 1) e i o).2 ∧
        timeRetry env ms (n + 1) e i o = separated (gapOf i o .retry ms) i o (as.length + 1) :=
      fun hna heq hsp => ⟨a, [], ⟨hreal, fun h => absurd h hna⟩, rfl, by rw [heq]; rfl, by rw [heq]; rfl, hsp⟩
    cases hr : a.result with
    | ok b =>
      have hev : evalOnce env (e.setRetry i o (n + 1)) i o = (a.after, .ok b) := by rw [← hr]
      apply single
      · rintro ⟨err, h1, _⟩; rw [hr] at h1; cases h1
      · unfold retryFrom
        rw [hev, hr]
      · rw [timeRetry, hev]
    | error err =>
      have hev : evalOnce env (e.setRetry i o (n + 1)) i o = (a.after, .error err) := by rw [← hr]
      cases hb : err.retriable with
      | false =>
        apply single
        · rintro ⟨err', h1, h2⟩; rw [hr] at h1; cases h1; rw [hb] at h2; cases h2
        · unfold retryFrom
          rw [hev, hr]
          simp [hb]
        · rw [timeRetry, hev]
          simp [hb]
      | true =>
        have heq : retryFrom env (n + 1) e i o = retryFrom env n a.after i o := by
          conv => lhs; unfold retryFrom
          rw [hev]
          simp [hb]
        obtain ⟨b, bs, h1, h2, h3, h4, h5⟩ := ih a.after
        refine ⟨a, b :: bs, ⟨hreal, ⟨err, hr, hb⟩, ?_, h1⟩, rfl, ?_, ?_, ?_⟩
        · rw [h2]; exact Unseen.setRetry ..
        · rw [heq]; exact h3
        · rw [heq]; exact h4
        · rw [timeRetry, hev]
          dsimp only
          rw [if_pos hb, h5, pauses_gap]
          rfl

/-- The attempts and pauses of an evaluation that starts in state `e`; `itv` is the stored interval, `itv'` the one stored
afterwards. -/
structure TimedBy (env : Env) (T : Timing) (i o : Nat) (itv itv' : Option Int) (e : Eng) (evs : List TimeEv) (e' : Eng) (a : Attempt)
    (as : List Attempt) (ms : Int) : Prop where
  tries : ∃ n, Retried env i o a as n
  first : a.before = e
  calls : ∀ j, calls e' j = calls (lastAttempt a as).after j
  events : evs = separated (gapOf i o .retry ms) i o (as.length + 1)
  /-- the stored interval is used and kept, else it is the one determined after the first attempt -/
  stored : ∀ v, itv = some v → ms = v ∧ itv' = some v
  fresh : itv = none → ms = T.interval a.after i o
  keeps : as ≠ [] → itv' = some ms

theorem intervalNow_stored (T : Timing) (v : Int) (e : Eng) : intervalNow T (some v) e i o = v := rfl

theorem timeActivity_tried (itv : Option Int) (e : Eng) : ∃ a as ms,
    TimedBy env T i o itv (intervalActivity env T itv e i o) e (timeActivity env T itv e i o) (evalActivity env e i o).1 a as ms := by
  let a : Attempt := ⟨e, (e.evalOnce env i o).1, (e.evalOnce env i o).2⟩
  have hreal : a.real env i o := rfl
  have hsplit : e.evalOnce env i o = (a.after, a.result) := rfl
  have single : timeActivity env T itv e i o = [.attempt i o] → (∀ j, Spec.calls (evalActivity env e i o).1 j = Spec.calls a.after j) →
      (∀ v, itv = some v → intervalActivity env T itv e i o = some v) → ∃ a as ms,
      TimedBy env T i o itv (intervalActivity env T itv e i o) e (timeActivity env T itv e i o) (evalActivity env e i o).1 a as ms :=
    fun h1 h2 h3 => ⟨a, [], intervalNow T itv a.after i o, ⟨0, hreal, fun _ => rfl⟩, rfl, h2, h1,
      fun v hv => ⟨by rw [hv]; rfl, h3 v hv⟩, fun hv => by rw [hv]; rfl, fun h => absurd rfl h⟩
  cases hr : a.result with
  | ok b =>
    have hev : e.evalOnce env i o = (a.after, .ok b) := by rw [← hr]
    apply single
    · rw [timeActivity, hev]
    · intro j
      unfold evalActivity
      rw [hev]
    · intro v hv
      unfold intervalActivity
      rw [hev]; exact hv
  | error err =>
    have hev : e.evalOnce env i o = (a.after, .error err) := by rw [← hr]
    have hE : e.evalActivity env i o = if err.retriable && a.after.hasRetry i o then
        match Eng.getRetry env a.after i o with
        | (e2, .error rerr) => (e2, .error rerr)
        | (e2, .ok c) => if 0 < c then Eng.retryFrom env (c.toNat - 1) e2 i o else (e2, .error err)
        else (a.after, .error err) := by
      conv => lhs; unfold Eng.evalActivity
      rw [hev]
      rfl
    have hS : timeActivity env T itv e i o = .attempt i o :: if err.retriable && a.after.hasRetry i o then
        match Eng.getRetry env a.after i o with
        | (_, .error _) => []
        | (e2, .ok c) => if 0 < c then pauses i o .retry (intervalNow T itv a.after i o) ++
            timeRetry env (intervalNow T itv a.after i o) (c.toNat - 1) e2 i o else []
        else [] := by
      conv => lhs; unfold Eng.timeActivity
      rw [hev]
      rfl
    have hV : intervalActivity env T itv e i o = if err.retriable && a.after.hasRetry i o then
        match Eng.getRetry env a.after i o with
        | (_, .error _) => itv
        | (_, .ok _) => some (intervalNow T itv a.after i o)
        else itv := by
      conv => lhs; unfold Eng.intervalActivity
      rw [hev]
      rfl
    have hkeep : ∀ v, itv = some v → intervalActivity env T itv e i o = some v := by
      intro v hv
      rw [hV]
      split
      · split
        · exact hv
        · rw [hv]; rfl
      · exact hv
    by_cases hc : (err.retriable && a.after.hasRetry i o) = true
    · rw [if_pos hc] at hE hS hV
      simp only [Bool.and_eq_true] at hc
      have hagain : a.again := ⟨err, hr, hc.1⟩
      have hgl := Eng.LocalE.getRetry (env := env) (i := i) (o := o) a.after
      have hgu := Spec.Unseen.getRetry (env := env) a.after i o
      generalize Eng.getRetry env a.after i o = q at hE hS hgl hV hgu
      obtain ⟨e2, rc⟩ := q
      cases rc with
      | error rerr =>
        dsimp only at hS hE hgl
        refine single hS ?_ hkeep
        intro j; rw [hE]; exact hgl.calls j
      | ok c =>
        dsimp only at hS hE hgl hV
        by_cases hpos : 0 < c
        · rw [if_pos hpos] at hE hS
          obtain ⟨b, bs, h1, h2, h3, h4, h5⟩ := timeRetry_tried (env := env) (i := i) (o := o) (intervalNow T itv a.after i o) (c.toNat - 1) e2
          refine ⟨a, b :: bs, intervalNow T itv a.after i o, ⟨c.toNat - 1 + 1, hreal, hagain, ?_, h1⟩, rfl, fun j => ?_, ?_,
            fun v hv => ⟨by rw [hv]; rfl, hkeep v hv⟩, fun hv => by rw [hv]; rfl, fun _ => hV⟩
          · rw [h2]; exact Unseen.trans hgu (.setRetry ..)
          · rw [hE]
            show _ = Spec.calls (lastAttempt b bs).after j
            rw [h3]
          · rw [hS, h5, pauses_gap]; rfl
        · rw [if_neg hpos] at hE hS
          refine single hS ?_ hkeep
          intro j; rw [hE]; exact hgl.calls j
    · rw [if_neg hc] at hE hS
      refine single hS ?_ hkeep
      intro j; rw [hE]

theorem timeCond_eq (e : Eng) (t : TaskRef) (r : EvalOut) :
    timeCond T e i o t r = if goesAgain r then gapOf i o .loop (e.delayOf T i t) else [] := by
  unfold timeCond goesAgain
  cases r with
  | res r => cases r <;> first | rfl | (dsimp only; rw [pauses_gap]; rfl)
  | _ => rfl

theorem TimedBy.congr {itv itv' : Option Int} {e f f' : Eng} {evs : List TimeEv} {a : Attempt} {as : List Attempt} {ms : Int}
    (h : TimedBy env T i o itv itv' e evs f a as ms) (hc : ∀ j, Spec.calls f' j = Spec.calls f j) : TimedBy env T i o itv itv' e evs f' a as ms :=
  { h with calls := fun j => (hc j).trans (h.calls j) }

theorem timeEval_tried (itv : Option Int) (e : Eng) (t : TaskRef) (td : TaskDef) :
    (td.kind = .iterator ∧ timeEval env T itv e i o t td = [] ∧ intervalEval env T itv e i o td = itv ∧
      ∀ j, calls (evalKind env e i o td).1 j = calls e j) ∨
    ∃ f evs a as ms, (∀ j, calls f j = calls e j) ∧
      TimedBy env T i o itv (intervalEval env T itv e i o td) f evs (evalKind env e i o td).1 a as ms ∧
      timeEval env T itv e i o t td = evs ++ roundGap i o td.kind (evalKind env e i o td).2 (e.delayOf T i t) := by
  unfold timeEval evalKind intervalEval
  cases hk : td.kind with
  | basic =>
    obtain ⟨a, as, ms, h⟩ := timeActivity_tried (env := env) (T := T) (i := i) (o := o) itv e
    refine Or.inr ⟨e, _, a, as, ms, fun _ => rfl, h.congr fun j => ?_, (List.append_nil _).symm⟩
    unfold evalBasic
    dsimp only
    split <;> simp_all
  | iterator =>
    dsimp only
    unfold timeIter evalIter iterRound
    cases getIter env e i o td with
    | error err => exact Or.inl ⟨rfl, rfl, rfl, fun _ => rfl⟩
    | ok oi =>
      cases oi with
      | none => exact Or.inl ⟨rfl, rfl, rfl, fun _ => rfl⟩
      | some it =>
        dsimp only
        by_cases hn : it.next.2 = false
        · rw [if_pos hn, if_pos hn]
          exact Or.inl ⟨rfl, rfl, rfl, fun j => calls_modO e _ j⟩
        · rw [if_neg hn, if_neg hn]
          cases hv : it.next.1.value with
          | none => exact Or.inl ⟨rfl, rfl, rfl, fun _ => rfl⟩
          | some v =>
            dsimp only
            generalize hf : e.modI i (fun I => I.modO o (fun x =>
              { x with iter := some it.next.1, iteration := some (it.next.1.key, v, it.next.1.current) })) = f
            obtain ⟨a, as, ms, h⟩ := timeActivity_tried (env := env) (T := T) (i := i) (o := o) itv f
            refine Or.inr ⟨f, _, a, as, ms, fun j => ?_, h.congr fun j => ?_, ?_⟩
            · rw [← hf]; exact calls_modO e _ j
            · split <;> simp_all [calls_setStatus_all]
            · congr 1
              generalize evalActivity env f i o = q
              obtain ⟨g, res⟩ := q
              cases res with
              | error err => rfl
              | ok b => cases b <;> (dsimp only; rw [pauses_gap]; rfl)
  | doWhile =>
    obtain ⟨a, as, ms, h⟩ := timeActivity_tried (env := env) (T := T) (i := i) (o := o) itv (e.dwInit i o)
    refine Or.inr ⟨_, _, a, as, ms, fun j => (LocalE.dwInit (i := i) (o := o) e).calls j, h.congr fun j => ?_, ?_⟩
    · unfold evalDoWhile
      dsimp only
      split
      · rename_i h; rw [h]; exact calls_setStatus_all _ _ _
      · rename_i h; rw [h]; exact calls_setStatus_all _ _ _
      · rename_i h; rw [h]; exact (LocalE.dwUpdate (i := i) (o := o) _).calls j
    · dsimp only
      rw [timeCond_eq]
      rfl

/-- What a resumed task does: it pauses before the activity is evaluated again, or after a round of a do-while loop that is
repeated. -/
theorem timePost_tried (itv : Option Int) (e : Eng) (t : TaskRef) (td : TaskDef) :
    ((∀ v, itv = some v → intervalPost env T itv e i o td = some v) ∧
      timePost env T itv e i o t td = if td.kind = .doWhile ∧ goesAgain (postKind env e i o td).2 then gapOf i o .loop (e.delayOf T i t) else []) ∨
    ∃ err f evs a as ms, td.kind = .basic ∧ (postOnce env e i o).2 = .error err ∧ (∀ j, calls f j = calls (postOnce env e i o).1 j) ∧
      timePost env T itv e i o t td = gapOf i o .retry ms ++ evs ∧ (∃ n, Retried env i o a as n) ∧ a.before = f ∧
      (∀ j, calls (postKind env e i o td).1 j = calls (lastAttempt a as).after j) ∧ evs = separated (gapOf i o .retry ms) i o (as.length + 1) ∧
      (∀ v, itv = some v → ms = v) ∧ (itv = none → ms = T.interval (postOnce env e i o).1 i o) ∧ intervalPost env T itv e i o td = some ms := by
  unfold timePost postKind intervalPost
  cases hk : td.kind with
  | iterator => exact Or.inl ⟨fun _ h => h, (if_neg (fun h => nomatch h.1)).symm⟩
  | doWhile =>
    refine Or.inl ⟨fun _ h => h, ?_⟩
    dsimp only
    rw [timeCond_eq]
    simp
  | basic =>
    dsimp only
    rw [if_neg (fun h => nomatch h.1)]
    unfold postBasic
    generalize postOnce env e i o = q
    obtain ⟨e1, r⟩ := q
    cases r with
    | ok b => exact Or.inl ⟨fun _ h => h, rfl⟩
    | error err =>
      dsimp only
      by_cases hc : (err.isAct && e1.hasRetry i o) = true
      · rw [if_pos hc, if_pos hc, if_pos hc]
        have hgl := Eng.LocalE.getRetry (env := env) (i := i) (o := o) e1
        generalize Eng.getRetry env e1 i o = q at hgl
        obtain ⟨e2, rc⟩ := q
        cases rc with
        | error rerr => exact Or.inl ⟨fun _ h => h, rfl⟩
        | ok c =>
          dsimp only at hgl ⊢
          by_cases hpos : 0 < c
          · rw [if_pos hpos, if_pos hpos]
            obtain ⟨b, bs, h1, h2, h3, h4, h5⟩ := timeRetry_tried (env := env) (i := i) (o := o) (intervalNow T itv e1 i o) (c.toNat - 1) e2
            refine Or.inr ⟨err, _, _, b, bs, intervalNow T itv e1 i o, rfl, rfl, fun j => ?_, by rw [pauses_gap], ⟨_, h1⟩, h2, fun j => ?_, h5,
              fun v hv => by rw [hv]; rfl, fun hv => by rw [hv]; rfl, rfl⟩
            · rw [(Eng.LocalE.setRetry (i := i) (o := o) e2 _).calls j, hgl.calls j]
            · rw [h3]
              split <;> simp_all
          · rw [if_neg hpos]
            exact Or.inl ⟨fun v hv => by rw [hv]; rfl, rfl⟩
      · rw [if_neg hc, if_neg hc]; exact Or.inl ⟨fun _ h => h, rfl⟩

end Eng

namespace Timed

variable {env : Env} {T : Timing}

theorem popped_eq (e : Eng) : popped env e = (Spec.next env e).map (fun w => (w.inst, w.obj, afterPop env e w)) := by
  unfold popped Spec.next
  cases hs : e.stack with
  | cons x l =>
    dsimp only
    rw [if_neg (fun h => nomatch h.1)]; rfl
  | nil =>
    dsimp only
    cases h0 : e.insts[0]? with
    | none =>
      dsimp only
      rw [if_neg]
      · rfl
      · rintro ⟨_, h⟩
        unfold flowStatus at h
        rw [h0] at h; cases h
    | some I =>
      dsimp only
      by_cases hI : I.status = .active
      · rw [if_pos hI, if_pos]
        · unfold afterPop
          rw [hs]
          cases e.queue[env.pick e % e.queue.length]? <;> rfl
        · refine ⟨rfl, ?_⟩
          unfold flowStatus
          rw [h0]; exact congrArg some hI
      · rw [if_neg hI, if_neg]
        · rfl
        · rintro ⟨_, h⟩
          unfold flowStatus at h
          rw [h0] at h
          exact hI (Option.some.inj h)

theorem step_idle {s : Timed} (h : Spec.next env s.eng = none) : (s.step env T).log = s.log ∧ (s.step env T).itv = s.itv := by
  unfold step
  rw [popped_eq, h]
  exact ⟨rfl, rfl⟩

theorem step_next {s : Timed} {w : WorkItem} (h : Spec.next env s.eng = some w) :
    (s.step env T).log = s.log ++ (exec env T (s.itv w.inst w.obj) (afterPop env s.eng w) w.inst w.obj).1 ∧
    (s.step env T).itv = fun j p => if j = w.inst ∧ p = w.obj then
      (exec env T (s.itv w.inst w.obj) (afterPop env s.eng w) w.inst w.obj).2 else s.itv j p := by
  unfold step
  rw [popped_eq, h]
  exact ⟨rfl, rfl⟩

theorem step_eng (s : Timed) : (s.step env T).eng = s.eng.step env := by
  unfold step
  cases popped env s.eng with
  | none => rfl
  | some x => rfl

theorem exec_eval {e : Eng} {i o : Nat} {itv : Option Int} {ob : Obj} {td : TaskDef} (ho : e.obj? i o = some ob)
    (ht : e.taskDef? i ob.task = some td) {e' : Eng} {r : Eng.EvalOut} (h : outcome env e i o = some (e', r)) :
    (ob.status = .waiting ∧ (e', r) = e.postKind env i o td ∧
      exec env T itv e i o = (e.timePost env T itv i o ob.task td, e.intervalPost env T itv i o td)) ∨
    (ob.status ≠ .waiting ∧ (e', r) = e.evalKind env i o td ∧
      exec env T itv e i o = (e.timeEval env T itv i o ob.task td, e.intervalEval env T itv i o td)) := by
  unfold outcome at h
  unfold exec
  rw [ho] at h ⊢
  dsimp only at h ⊢
  rw [ht] at h ⊢
  dsimp only at h ⊢
  cases hs : ob.status <;> rw [hs] at h <;> simp at h <;> simp [h]

theorem exec_idle {e : Eng} {i o : Nat} {itv : Option Int} (h : outcome env e i o = none) : exec env T itv e i o = ([], itv) := by
  unfold outcome at h
  unfold exec
  cases ho : e.obj? i o with
  | none => rfl
  | some ob =>
    rw [ho] at h
    dsimp only at h ⊢
    cases ht : e.taskDef? i ob.task with
    | none => rfl
    | some td =>
      rw [ht] at h
      dsimp only at h ⊢
      cases hs : ob.status <;> rw [hs] at h <;> simp at h <;> rfl

theorem mem_separated {gap : List TimeEv} {i o n : Nat} {ev : TimeEv} (h : ev ∈ separated gap i o n) : ev = .attempt i o ∨ ev ∈ gap := by
  induction n with
  | zero => cases h
  | succ n ih =>
    cases n with
    | zero => exact Or.inl (List.mem_singleton.1 h)
    | succ n =>
      rcases List.mem_append.1 h with h | h
      · rcases List.mem_cons.1 h with h | h
        · exact Or.inl h
        · exact Or.inr h
      · exact ih h

theorem mem_gapOf {i o : Nat} {why : PauseFor} {ms : Int} {ev : TimeEv} (h : ev ∈ gapOf i o why ms) : ev = .pause i o why ms ∧ 0 < ms := by
  unfold gapOf at h
  split at h
  · cases h
  · exact ⟨List.mem_singleton.1 h, by omega⟩

theorem mem_roundGap {i o : Nat} {k : TaskKind} {r : Eng.EvalOut} {ms : Int} {ev : TimeEv} (h : ev ∈ roundGap i o k r ms) :
    ev = .pause i o .loop ms ∧ 0 < ms := by
  unfold roundGap at h
  cases k with
  | basic => cases h
  | iterator =>
    dsimp only at h
    split at h
    · exact mem_gapOf h
    · cases h
  | doWhile =>
    dsimp only at h
    split at h
    · exact mem_gapOf h
    · cases h

/-- What the execution of a task instance adds: events of this instance only, positive pauses, and pauses before retries of the
length that is stored. -/
structure Fits (i o : Nat) (itv itv' : Option Int) (evs : List TimeEv) : Prop where
  own : ∀ j p why ms, .pause j p why ms ∈ evs → j = i ∧ p = o ∧ 0 < ms
  retry : ∀ j p ms, .pause j p .retry ms ∈ evs → itv' = some ms
  kept : ∀ v, itv = some v → itv' = some v

theorem Fits.nil {i o : Nat} (itv : Option Int) : Fits i o itv itv [] := ⟨(fun _ _ _ _ h => nomatch h), (fun _ _ _ h => nomatch h), fun _ h => h⟩

theorem separated_one {gap : List TimeEv} {i o n : Nat} (h : ¬ 1 < n) : ∀ ev ∈ separated gap i o n, ev = .attempt i o := by
  match n, h with
  | 0, _ => intro ev h; cases h
  | 1, _ => intro ev h; exact List.mem_singleton.1 h
  | n + 2, h => exact absurd (by omega) h

theorem exec_fits (itv : Option Int) (e : Eng) (i o : Nat) :
    Fits i o itv (exec env T itv e i o).2 (exec env T itv e i o).1 := by
  cases hout : outcome env e i o with
  | none => rw [exec_idle hout]; exact .nil itv
  | some q =>
    obtain ⟨e', r⟩ := q
    obtain ⟨ob, td, ho, ht⟩ : ∃ ob td, e.obj? i o = some ob ∧ e.taskDef? i ob.task = some td := by
      unfold outcome at hout
      cases ho : e.obj? i o with
      | none => rw [ho] at hout; cases hout
      | some ob =>
        rw [ho] at hout
        dsimp only at hout
        cases ht : e.taskDef? i ob.task with
        | none => rw [ht] at hout; cases hout
        | some td => exact ⟨ob, td, rfl, ht⟩
    rcases exec_eval (T := T) (itv := itv) ho ht hout with ⟨_, _, hx⟩ | ⟨_, _, hx⟩
    · rw [hx]
      rcases Eng.timePost_tried (env := env) (T := T) (i := i) (o := o) itv e ob.task td with
        ⟨hk, hev⟩ | ⟨err, f, evs, a, as, ms, _, _, _, hev, _, _, _, hs, hv, _, hk⟩
      · have own : ∀ ev ∈ Eng.timePost env T itv e i o ob.task td, ev = .pause i o .loop (e.delayOf T i ob.task) ∧ 0 < e.delayOf T i ob.task := by
          intro ev hm
          rw [hev] at hm
          split at hm
          · exact mem_gapOf hm
          · cases hm
        refine ⟨fun j p why ms hm => ?_, fun j p ms hm => ?_, hk⟩
        · obtain ⟨h1, h2⟩ := own _ hm; cases h1; exact ⟨rfl, rfl, h2⟩
        · obtain ⟨h1, h2⟩ := own _ hm; cases h1
      · have own : ∀ ev ∈ Eng.timePost env T itv e i o ob.task td, ev = .attempt i o ∨ ev = .pause i o .retry ms ∧ 0 < ms := by
          intro ev hm
          rw [hev, hs] at hm
          rcases List.mem_append.1 hm with hm | hm
          · exact Or.inr (mem_gapOf hm)
          · exact (mem_separated hm).imp_right mem_gapOf
        refine ⟨fun j p why m hm => ?_, fun j p m hm => ?_, fun v hv' => ?_⟩
        · rcases own _ hm with h | ⟨h, h2⟩ <;> cases h; exact ⟨rfl, rfl, h2⟩
        · rcases own _ hm with h | ⟨h, h2⟩ <;> cases h; exact hk
        · rw [← hv v hv']; exact hk
    · rw [hx]
      rcases Eng.timeEval_tried (env := env) (T := T) (i := i) (o := o) itv e ob.task td with ⟨_, hev, hk, _⟩ | ⟨f, evs, a, as, ms, _, h, hev⟩
      · dsimp only; rw [hev, hk]; exact .nil itv
      · dsimp only
        rw [hev, h.events]
        refine ⟨fun j p why m hm => ?_, fun j p m hm => ?_, fun v hv => (h.stored v hv).2⟩
        · rcases List.mem_append.1 hm with hm | hm
          · rcases mem_separated hm with hm | hm
            · cases hm
            · obtain ⟨h1, h2⟩ := mem_gapOf hm; cases h1; exact ⟨rfl, rfl, h2⟩
          · obtain ⟨h1, h2⟩ := mem_roundGap hm; cases h1; exact ⟨rfl, rfl, h2⟩
        · rcases List.mem_append.1 hm with hm | hm
          · cases as with
            | nil => exact nomatch separated_one (by simp) _ hm
            | cons b bs =>
              rcases mem_separated hm with hm | hm
              · cases hm
              · obtain ⟨h1, _⟩ := mem_gapOf hm; cases h1; exact h.keeps (fun h => nomatch h)
          · obtain ⟨h1, h2⟩ := mem_roundGap hm; cases h1

theorem step_fits (s : Timed) : (∃ new, (s.step env T).log = s.log ++ new ∧ (∀ j p why ms, .pause j p why ms ∈ new → 0 < ms) ∧
      (∀ j p ms, .pause j p .retry ms ∈ new → (s.step env T).itv j p = some ms)) ∧
    ∀ j p v, s.itv j p = some v → (s.step env T).itv j p = some v := by
  cases hn : Spec.next env s.eng with
  | none =>
    obtain ⟨h1, h2⟩ := step_idle (T := T) hn
    rw [h2]
    exact ⟨⟨[], h1.trans (List.append_nil _).symm, (fun _ _ _ _ h => nomatch h), (fun _ _ _ h => nomatch h)⟩, fun _ _ _ h => h⟩
  | some w =>
    obtain ⟨h1, h2⟩ := step_next (T := T) hn
    have hf := exec_fits (env := env) (T := T) (s.itv w.inst w.obj) (afterPop env s.eng w) w.inst w.obj
    refine ⟨⟨_, h1, fun j p why ms hm => (hf.own j p why ms hm).2.2, fun j p ms hm => ?_⟩, fun j p v hv => ?_⟩
    · obtain ⟨hj, hp, _⟩ := hf.own j p _ ms hm
      rw [h2]
      dsimp only
      rw [if_pos ⟨hj, hp⟩]
      exact hf.retry j p ms hm
    · rw [h2]
      dsimp only
      by_cases hjp : j = w.inst ∧ p = w.obj
      · rw [if_pos hjp]
        rw [hjp.1, hjp.2] at hv
        exact hf.kept v hv
      · rw [if_neg hjp]; exact hv

theorem run_itv {s : Timed} {j p : Nat} {v : Int} (h : s.itv j p = some v) (n : Nat) : (run env T s n).itv j p = some v := by
  induction n with
  | zero => exact h
  | succ n ih => exact (step_fits _).2 j p v ih

end Timed
end Flow
