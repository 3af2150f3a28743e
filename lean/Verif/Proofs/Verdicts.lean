import Verif.Spec.Verdicts
import Verif.Proofs.Delays
import Verif.Proofs.Retry

/-
What one trial tells the interceptor.
-/

namespace Flow
open Spec

variable {env : Env} {J : Judge} {i o : Nat}

/-! ### The assertions of one interceptor -/

theorem assertChecks_spec (J : Nat → Judgement) : ∀ (cs : List Check) (k : Nat), (∀ c ∈ cs, c.primitive = true) →
    (assertChecks J k cs).length = cs.length ∧
    ∀ n (c : Check), cs[n]? = some c → (assertChecks J k cs)[n]? = some { c with result := trueVerdict c (J (k + n)) }
  | [], _, _ => ⟨rfl, fun _ _ h => by simp at h⟩
  | c :: cs, k, hp => by
    obtain ⟨h1, h2⟩ := assertChecks_spec J cs (k + 1) (fun c h => hp c (.tail _ h))
    have hc := hp c (.head _)
    have key : assertChecks J k (c :: cs) = { c with result := trueVerdict c (J k) } :: assertChecks J (k + 1) cs := by
      show (if c.empty then _ else if c.primitive = false then _ else _) = _
      unfold trueVerdict
      by_cases he : c.empty = true
      · rw [if_pos he, if_pos he]
      · rw [if_neg he, if_neg he, if_neg (by rw [hc]; simp)]
        cases J k with
        | value b => cases b <;> rfl
        | _ => rfl
    rw [key]
    refine ⟨congrArg (· + 1) h1, fun n d hd => ?_⟩
    cases n with
    | zero => cases hd; rfl
    | succ n =>
      have := h2 n d hd
      rw [Nat.add_assoc, Nat.add_comm 1 n] at this
      exact this

theorem assertChecks_static (J : Nat → Judgement) : ∀ (cs : List Check) (k : Nat),
    (assertChecks J k cs).map (fun c => (c.empty, c.primitive)) = cs.map (fun c => (c.empty, c.primitive))
  | [], _ => rfl
  | c :: cs, k => by
    unfold assertChecks
    split
    · exact congrArg (_ :: ·) (assertChecks_static J cs (k + 1))
    · split
      · rfl
      · exact congrArg (_ :: ·) (assertChecks_static J cs (k + 1))

namespace Book

theorem mod_self {b : Book} {key : String} {r : Report} (h : b key = some r) (f : Report → Report) : b.mod key f key = some (f r) := by
  unfold mod; rw [if_pos rfl, h]; rfl

theorem mod_none {b : Book} {key key' : String} (h : b key' = none) (f : Report → Report) : b.mod key f key' = none := by
  unfold mod
  split
  · rw [h]; rfl
  · exact h

theorem mod_other {b : Book} {key key' : String} (h : key' ≠ key) (f : Report → Report) : b.mod key f key' = b key' := if_neg h

end Book

/-! ### One trial -/

/-- The parts of a book that the status of an activity does not touch. -/
def Book.marked (b : Book) (key : String) : Option Verdict → Book
  | none => b
  | some v => b.mark key v

namespace Eng

theorem assertion_quiet (hm : NoModeError env) (e : Eng) (ob : Obj) : assertion env e i ob = (e, none) := by
  unfold assertion
  split
  · rename_i tc htc
    have : tc.assertErr = false := by
      unfold icpOut at htc
      split at htc
      · cases htc
      · exact hm _ _ htc
    rw [this]; rfl
  · rfl

theorem andThen_assoc (r : Eng × Option Err) (f g : Eng → Eng × Option Err) : andThen r (fun e => andThen (f e) g) = andThen (andThen r f) g := by
  obtain ⟨e, x⟩ := r
  cases x <;> rfl

theorem bookDone_spec (hm : NoModeError env) (b : Book) (e : Eng) (key : String) (ob : Obj) (td : TaskDef) :
    (bookDone env J b e i o key ob td = b ∧ ∃ err, (afterDone env e i o ob td).2 = .error err) ∨
    (bookDone env J b e i o key ob td = b.assert key .activity (J (afterDone env e i o ob td).1 i key) ∧ (afterDone env e i o ob td).2 = .ok true) := by
  unfold bookDone afterDone
  cases env.outSchema e i o with
  | some err => exact Or.inl ⟨rfl, err, rfl⟩
  | none =>
    dsimp only
    rw [andThen_assoc]
    generalize andThen (outputInterceptor env e i o ob td) (fun e1 => storeOutputs env e1 i o ob.task.id td) = q
    obtain ⟨e2, x⟩ := q
    cases x with
    | some err => exact Or.inl ⟨rfl, err, rfl⟩
    | none =>
      refine Or.inr ?_
      show _ = b.assert key .activity (J (doneOrErr (assertion env e2 i ob)).1 i key) ∧ (doneOrErr (assertion env e2 i ob)).2 = _
      rw [assertion_quiet hm]
      exact ⟨rfl, rfl⟩

/-- What a trial that evaluates the activity does to the book `b`, when it ends with `q`. -/
inductive BookedAs (J : Judge) (i : Nat) (key : String) (b b' : Book) (q : Eng × Except Err Bool) (called failed : Prop) : Prop
  | none (v : Option Verdict) (hv : ∀ x, v = some x → x = .mocked ∨ x = .pass ∧ called) (h : b' = b.marked key v) (hq : q.2 ≠ .ok true)
  | activity (v : Option Verdict) (hv : ∀ x, v = some x → x = .mocked ∨ x = .pass ∧ called) (h : b' = (b.marked key v).assert key .activity (J q.1 i key)) (hq : q.2 = .ok true)
  | exception (h : b' = (b.mark key .fail).assert key .exception (J q.1 i key)) (hf : failed) (hq : q.2 ≠ .ok true)

theorem booked_done {b : Book} {key : String} {e : Eng} {ob : Obj} {td : TaskDef} {called failed : Prop} (hm : NoModeError env) (v : Option Verdict)
    (hv : ∀ x, v = some x → x = .mocked ∨ x = .pass ∧ called) :
    BookedAs J i key b (bookDone env J (b.marked key v) e i o key ob td) (afterDone env e i o ob td) called failed := by
  rcases bookDone_spec (J := J) (i := i) (o := o) hm (b.marked key v) e key ob td with ⟨h1, err, h2⟩ | ⟨h1, h2⟩
  · exact .none v hv h1 (by rw [h2]; exact fun h => nomatch h)
  · exact .activity v hv h1 h2

/-- The activity was called and reported an error. -/
def CalledAndFailed (env : Env) (i o : Nat) (p : Eng) (ob : Obj) (td : TaskDef) (q : Eng × Except Err Bool) : Prop :=
  ∃ e3 err, callActivity env p i o ob td = (e3, .error err, false) ∧ q = (e3.evalErrorData i ob.task.id err, .error err)

/-- The activity was called, and the trial ends in a state with the calls it left. -/
def CalledAndLeft (env : Env) (i o : Nat) (p : Eng) (ob : Obj) (td : TaskDef) (q : Eng × Except Err Bool) : Prop :=
  ∃ e3 x, callActivity env p i o ob td = (e3, x) ∧ LocalE false i o e3 q.1

theorem bookWith_spec (hm : NoModeError env) (b : Book) (p : Eng × Bool) (key : String) (ob : Obj) (td : TaskDef) :
    BookedAs J i key b (bookWith env J b p i o key ob td) (evalWith env p i o ob td)
      (CalledAndLeft env i o p.1 ob td (evalWith env p i o ob td)) (CalledAndFailed env i o p.1 ob td (evalWith env p i o ob td)) := by
  unfold bookWith evalWith
  by_cases h2 : p.2 = false
  · rw [if_pos h2, if_pos h2]
    exact booked_done hm none (fun _ h => nomatch h)
  · rw [if_neg h2, if_neg h2]
    cases env.inSchema p.1 i o with
    | some err => exact .none none (fun _ h => nomatch h) rfl (fun h => nomatch h)
    | none =>
      dsimp only
      by_cases hmo : mocked env p.1 i ob = true
      · rw [if_pos hmo, if_pos hmo]
        exact booked_done hm (some .mocked) (fun _ h => Or.inl (Option.some.inj h).symm)
      · rw [if_neg hmo, if_neg hmo]
        cases hc : callActivity env p.1 i o ob td with
        | mk e3 q =>
        obtain ⟨r, pn⟩ := q
        cases r with
        | error err =>
          cases pn with
          | true => exact .none none (fun _ h => nomatch h) rfl (fun h => nomatch h)
          | false => exact .exception rfl ⟨e3, err, hc, rfl⟩ (fun h => nomatch h)
        | ok d =>
          cases d with
          | true => exact booked_done hm (some .pass) (fun _ h => Or.inr ⟨(Option.some.inj h).symm, e3, _, hc, LocalE.afterDone e3 ob td⟩)
          | false => exact .none (some .pass) (fun _ h => Or.inr ⟨(Option.some.inj h).symm, e3, _, hc, .refl ..⟩) rfl (fun h => nomatch h)

/-- What happens to the entry of the interceptor. -/
theorem noted_of {t : Trial} {key : String} {b b' : Book} {r : Report} (hb : b key = some r) (hp : ∀ c ∈ r.checks, c.primitive = true)
    {ty : WatchType} (v : Option Verdict) (hv : ∀ x, v = some x → StatusNoted env i o t r.result x) (he : TrialEnds env i o t ty)
    (h : b' = (b.marked key v).assert key ty (J (trialAfter env i o t) i key)) :
    ∃ r', b' key = some r' ∧ r'.type = r.type ∧ Noted env J i o t key r r' ∧ StatusNoted env i o t r.result r'.result ∧
      r'.checks.map (fun c => (c.empty, c.primitive)) = r.checks.map (fun c => (c.empty, c.primitive)) := by
  obtain ⟨r0, hr0, ht, hc, hst⟩ : ∃ r0, b.marked key v key = some r0 ∧ r0.type = r.type ∧ r0.checks = r.checks ∧ StatusNoted env i o t r.result r0.result := by
    cases v with
    | none => exact ⟨r, hb, rfl, rfl, .kept⟩
    | some v => exact ⟨_, Book.mod_self hb _, rfl, rfl, hv v rfl⟩
  rw [h]
  refine ⟨_, Book.mod_self hr0 _, ?_⟩
  unfold Report.assert
  rw [ht, hc]
  by_cases hty : r.type = ty
  · rw [if_pos hty]
    refine ⟨rfl, .judged (hty ▸ he) ?_, hst, assertChecks_static _ _ _⟩
    obtain ⟨h1, h2⟩ := assertChecks_spec (J (trialAfter env i o t) i key) r.checks 0 hp
    refine ⟨h1, fun k c hk => ?_⟩
    have := h2 k c hk
    rw [Nat.zero_add] at this
    exact this
  · rw [if_neg hty]
    refine ⟨rfl, .unfit hty he rfl, hst, ?_⟩
    rw [List.map_map]
    rfl

theorem noted_kept {t : Trial} {key : String} {b b' : Book} {r : Report} (hb : b key = some r) (v : Option Verdict)
    (hv : ∀ x, v = some x → StatusNoted env i o t r.result x) (hs : ¬ TrialSucceeded env i o t) (h : b' = b.marked key v) :
    ∃ r', b' key = some r' ∧ r'.type = r.type ∧ Noted env J i o t key r r' ∧ StatusNoted env i o t r.result r'.result ∧
      r'.checks.map (fun c => (c.empty, c.primitive)) = r.checks.map (fun c => (c.empty, c.primitive)) := by
  rw [h]
  cases v with
  | none => exact ⟨r, hb, rfl, .kept hs rfl, .kept, rfl⟩
  | some v => exact ⟨_, Book.mod_self hb _, rfl, .kept hs rfl, hv v rfl, rfl⟩

theorem marked_other {b : Book} {key key' : String} (h : key' ≠ key) (v : Option Verdict) : b.marked key v key' = b key' := by
  cases v with
  | none => rfl
  | some v => exact Book.mod_other h _

theorem marked_none {b : Book} {key key' : String} (h : b key' = none) (v : Option Verdict) : b.marked key v key' = none := by
  cases v with
  | none => exact h
  | some v => exact Book.mod_none h _

theorem watchKey_eq {e : Eng} {I : Inst} (hI : e.insts[i]? = some I) (t : TaskId) : e.watchKey i t = I.defn.name ++ "-" ++ t := by
  unfold watchKey; rw [hI]

theorem attrAt_evalErrorData {e : Eng} {I : Inst} (hI : e.insts[i]? = some I) (t : TaskId) (err : Err) :
    attrAt (e.evalErrorData i t err) i ("_E." ++ t) = some (errorObj t err) := by
  unfold attrAt evalErrorData
  rw [modI_self hI]
  exact AMap.get?_set_self _ _ _

/-- A call of `EvalActivity`. -/
theorem bookOnce_noted (hm : NoModeError env) (b : Book) (hp : AllPrimitive b) (e : Eng) :
    (∀ key, ¬ WatchedBy i o ⟨false, e⟩ key → bookOnce env J b e i o key = b key) ∧
    (∀ key, b key = none → bookOnce env J b e i o key = none) ∧
    ∀ key r, WatchedBy i o ⟨false, e⟩ key → b key = some r →
      ∃ r', bookOnce env J b e i o key = some r' ∧ r'.type = r.type ∧ Noted env J i o ⟨false, e⟩ key r r' ∧ StatusNoted env i o ⟨false, e⟩ r.result r'.result ∧
        r'.checks.map (fun c => (c.empty, c.primitive)) = r.checks.map (fun c => (c.empty, c.primitive)) := by
  cases ho : e.obj? i o with
  | none =>
    unfold bookOnce
    rw [ho]
    refine ⟨fun _ _ => rfl, fun _ h => h, fun key r hw _ => ?_⟩
    obtain ⟨I, ob, hI, hob, _⟩ := hw
    rw [obj?_eq hI] at ho
    rw [ho] at hob; cases hob
  | some ob =>
  obtain ⟨I, hI, hob⟩ := obj?_some ho
  have hkey : ∀ key, WatchedBy i o ⟨false, e⟩ key ↔ key = e.watchKey i ob.task.id := by
    intro key
    rw [watchKey_eq hI]
    constructor
    · rintro ⟨I', ob', h1, h2, h3⟩
      have h1' : e.insts[i]? = some I' := h1
      rw [hI] at h1'; cases h1'
      rw [hob] at h2; cases h2
      exact h3
    · intro h; exact ⟨I, ob, hI, hob, h⟩
  have hres : ∀ q, evalOnce env e i o = q → trialAfter env i o ⟨false, e⟩ = q.1 ∧
      (TrialSucceeded env i o ⟨false, e⟩ ↔ q.2 = .ok true) := by
    intro q hq
    exact ⟨congrArg Prod.fst hq, by show (evalOnce env e i o).2 = _ ↔ _; rw [hq]⟩
  have hall : ∃ called failed, (called → TrialCalled env i o ⟨false, e⟩) ∧ (failed → TrialFailed env i o ⟨false, e⟩) ∧
      BookedAs J i (e.watchKey i ob.task.id) b (bookOnce env J b e i o) (evalOnce env e i o) called failed := by
    unfold bookOnce
    rw [ho]
    dsimp only
    cases htd : e.taskDef? i ob.task with
    | none =>
      refine ⟨False, False, False.elim, False.elim, .none none (fun _ h => nomatch h) rfl ?_⟩
      unfold evalOnce; rw [ho]; dsimp only; rw [htd]; exact fun h => nomatch h
    | some td =>
      dsimp only
      have hloc : LocalE false i o e _ := LocalE.applyInputMapper (env := env) e td.name
      have hev : evalOnce env e i o = match applyInputMapper env e i o td.name with
          | (e1, some err) => (e1, .error err)
          | (e1, none) => evalWith env (inputInterceptor env e1 i o ob) i o ob td := by
        conv => lhs; unfold evalOnce
        rw [ho]; dsimp only; rw [htd]; rfl
      cases hq : applyInputMapper env e i o td.name with
      | mk e1 x =>
      rw [hq] at hev hloc
      cases x with
      | some err => exact ⟨False, False, False.elim, False.elim, .none none (fun _ h => nomatch h) rfl (by rw [hev]; exact fun h => nomatch h)⟩
      | none =>
        dsimp only at hev hloc ⊢
        refine ⟨_, _, ?_, ?_, hev ▸ bookWith_spec hm b (inputInterceptor env e1 i o ob) (e.watchKey i ob.task.id) ob td⟩
        · rintro ⟨e3, x, hcall, hq'⟩
          have hq2 : LocalE false i o e3 (evalOnce env e i o).1 := hq'
          have hloc2 := hloc.trans (LocalE.inputInterceptor (env := env) (k := false) (i := i) (o := o) e1 ob)
          obtain ⟨I1, hI1, hl1⟩ := hloc2.inst hI
          obtain ⟨I3, hI3, htr, _⟩ := callActivity_calls (env := env) (o := o) (ob := ob) td hI1
          rw [hcall] at hI3
          have h3 : e3.insts[i]? = some I3 := hI3
          refine ⟨rfl, ob.task, by show (e.obj? i o).map _ = _; rw [ho]; rfl, ?_⟩
          show Spec.calls (evalOnce env e i o).1 i = _
          rw [hq2.calls i]
          unfold Spec.calls
          rw [h3, hI]
          show I3.trace.filter isCall = _
          rw [htr, hl1.trace]
          rfl
        rintro ⟨e3, err, hcall, hq'⟩
        have hloc2 := hloc.trans (LocalE.inputInterceptor (env := env) (k := false) (i := i) (o := o) e1 ob)
        obtain ⟨I1, hI1, hl1⟩ := hloc2.inst hI
        obtain ⟨I3, hI3, htr, _⟩ := callActivity_calls (env := env) (o := o) (ob := ob) td hI1
        rw [hcall] at hI3
        have h3 : e3.insts[i]? = some I3 := hI3
        have hev : evalOnce env e i o = (e3.evalErrorData i ob.task.id err, .error err) := hq'
        have haft : trialAfter env i o ⟨false, e⟩ = e3.evalErrorData i ob.task.id err := congrArg Prod.fst hev
        refine ⟨rfl, err, ob.task, by show (e.obj? i o).map _ = _; rw [ho]; rfl, congrArg Prod.snd hev, ?_, ?_⟩
        · rw [haft, (LocalE.evalErrorData (k := false) (i := i) (o := o) e3 ob.task.id err).calls i]
          unfold Spec.calls
          rw [h3, hI]
          show I3.trace.filter isCall = _
          rw [htr, hl1.trace]
          rfl
        · rw [haft]; exact attrAt_evalErrorData h3 _ _
  obtain ⟨called, failed, hcalled, hfail, hB⟩ := hall
  obtain ⟨hafter, hsucc⟩ := hres _ rfl
  constructor
  · intro key hk
    have hne : key ≠ e.watchKey i ob.task.id := fun h => hk ((hkey key).2 h)
    rcases hB with ⟨v, _, h, _⟩ | ⟨v, _, h, _⟩ | ⟨h, _⟩
    · rw [h]; exact marked_other hne v
    · rw [h]; exact (Book.mod_other hne _).trans (marked_other hne v)
    · rw [h]; exact (Book.mod_other hne _).trans (Book.mod_other hne _)
  · refine ⟨fun key hk => ?_, ?_⟩
    · rcases hB with ⟨v, _, h, _⟩ | ⟨v, _, h, _⟩ | ⟨h, _⟩
      · rw [h]; exact marked_none hk v
      · rw [h]; exact Book.mod_none (marked_none hk v) _
      · rw [h]; exact Book.mod_none (Book.mod_none hk _) _
    intro key r hw hr
    cases (hkey key).1 hw
    have hvs : ∀ v : Option Verdict, (∀ x, v = some x → x = .mocked ∨ x = .pass ∧ called) → ∀ x, v = some x →
        StatusNoted env i o ⟨false, e⟩ r.result x := by
      intro v h x hx
      rcases h x hx with h | ⟨h, hc⟩
      · rw [h]; exact .mocked
      · rw [h]; exact .pass (hcalled hc)
    rcases hB with ⟨v, hv, h, hq⟩ | ⟨v, hv, h, hq⟩ | ⟨h, hf, hq⟩
    · exact noted_kept hr v (hvs v hv) (fun h => hq (hsucc.1 h)) h
    · exact noted_of hr (hp _ _ hr) (ty := .activity) v (hvs v hv) (hsucc.2 hq) (hafter ▸ h)
    · exact noted_of hr (hp _ _ hr) (ty := .exception) (some .fail) (fun _ h => (Option.some.inj h) ▸ .fail (hfail hf)) (hfail hf) (hafter ▸ h)

theorem callPost_wait {e e1 : Eng} {td : TaskDef} (h : callPost env e i o td = (e1, .ok false)) : td.act = .async ∧ (env.post e i o).res = .wait := by
  unfold callPost at h
  split at h
  · rename_i ha
    refine ⟨ha, ?_⟩
    dsimp only at h
    split at h
    · cases h
    · assumption
    · cases h
    · cases h
  · cases h

theorem callPost_done {e e1 : Eng} {td : TaskDef} (h : callPost env e i o td = (e1, .ok true)) (ha : td.act = .async) : (env.post e i o).res ≠ .wait := by
  intro hw
  unfold callPost at h
  rw [ha] at h
  dsimp only at h
  rw [hw] at h
  cases h

/-- A call of `PostEvalActivity`. -/
theorem bookPost_noted (hm : NoModeError env) (b : Book) (hp : AllPrimitive b) (e : Eng) :
    (∀ key, ¬ WatchedBy i o ⟨true, e⟩ key → bookPost env J b e i o key = b key) ∧
    (∀ key, b key = none → bookPost env J b e i o key = none) ∧
    ∀ key r, WatchedBy i o ⟨true, e⟩ key → b key = some r →
      ∃ r', bookPost env J b e i o key = some r' ∧ r'.type = r.type ∧ Noted env J i o ⟨true, e⟩ key r r' ∧ StatusNoted env i o ⟨true, e⟩ r.result r'.result ∧
        r'.checks.map (fun c => (c.empty, c.primitive)) = r.checks.map (fun c => (c.empty, c.primitive)) := by
  cases ho : e.obj? i o with
  | none =>
    unfold bookPost
    rw [ho]
    refine ⟨fun _ _ => rfl, fun _ h => h, fun key r hw _ => ?_⟩
    obtain ⟨I, ob, hI, hob, _⟩ := hw
    rw [obj?_eq hI] at ho
    rw [ho] at hob; cases hob
  | some ob =>
  obtain ⟨I, hI, hob⟩ := obj?_some ho
  have hkey : ∀ key, WatchedBy i o ⟨true, e⟩ key ↔ key = e.watchKey i ob.task.id := by
    intro key
    rw [watchKey_eq hI]
    constructor
    · rintro ⟨I', ob', h1, h2, h3⟩
      have h1' : e.insts[i]? = some I' := h1
      rw [hI] at h1'; cases h1'
      rw [hob] at h2; cases h2
      exact h3
    · intro h; exact ⟨I, ob, hI, hob, h⟩
  have hall : (bookPost env J b e i o = b ∧ ¬ TrialSucceeded env i o ⟨true, e⟩) ∨
      (bookPost env J b e i o = b.assert (e.watchKey i ob.task.id) .activity (J (trialAfter env i o ⟨true, e⟩) i (e.watchKey i ob.task.id)) ∧
        TrialSucceeded env i o ⟨true, e⟩) := by
    have hno : (postOnce env e i o).2 ≠ .ok () → ¬ TrialSucceeded env i o ⟨true, e⟩ := fun h1 h2 => h1 h2.1
    have hta : trialAfter env i o ⟨true, e⟩ = (postOnce env e i o).1 := rfl
    rw [hta]
    cases htd : e.taskDef? i ob.task with
    | none =>
      unfold bookPost
      rw [ho]
      dsimp only
      rw [htd]
      refine Or.inl ⟨rfl, hno ?_⟩
      unfold postOnce; rw [ho]; dsimp only; rw [htd]; exact fun h => nomatch h
    | some td =>
      have hpo : postOnce env e i o = match callPost env (e.modI i (fun I => { I with trace := .postAct o ob.task :: I.trace })) i o td with
          | (e1, .error err) => (e1, .error err)
          | (e1, .ok done) =>
          match (e1.obj? i o).bind (·.returnError) with
          | some err => (e1, .error err)
          | none => if done then postStore env e1 i o ob td else (e1, .ok ()) := by
        conv => lhs; unfold postOnce
        rw [ho]; dsimp only; rw [htd]; rfl
      have hbo : bookPost env J b e i o = match callPost env (e.modI i (fun I => { I with trace := .postAct o ob.task :: I.trace })) i o td with
          | (_, .error _) => b
          | (e1, .ok done) =>
          match (e1.obj? i o).bind (·.returnError) with
          | some _ => b
          | none => if done then bookStore env J b e1 i o (e.watchKey i ob.task.id) ob td else b := by
        conv => lhs; unfold bookPost
        rw [ho]; dsimp only; rw [htd]; rfl
      cases hc : callPost env (e.modI i (fun I => { I with trace := .postAct o ob.task :: I.trace })) i o td with
      | mk e1 x =>
      rw [hc] at hpo hbo
      cases x with
      | error err => exact Or.inl ⟨hbo, hno (by rw [hpo]; exact fun h => nomatch h)⟩
      | ok done =>
        dsimp only at hpo hbo
        cases hr : (e1.obj? i o).bind (·.returnError) with
        | some err =>
          rw [hr] at hpo hbo
          exact Or.inl ⟨hbo, hno (by rw [hpo]; exact fun h => nomatch h)⟩
        | none =>
          rw [hr] at hpo hbo
          dsimp only at hpo hbo
          cases done with
          | false =>
            refine Or.inl ⟨hbo, fun hs => ?_⟩
            obtain ⟨ha, hw⟩ := callPost_wait hc
            exact hs.2 ob td ho htd ha _ rfl hw
          | true =>
            rw [if_pos rfl] at hpo hbo
            unfold bookStore at hbo
            unfold postStore at hpo
            rw [andThen_assoc] at hpo
            generalize andThen (outputInterceptor env e1 i o ob td) (fun e1 =>
              if td.accumulates then e1.accumulate i o ob.task.id else outputMapper env e1 i o td.name) = q at hbo hpo
            obtain ⟨e2, x⟩ := q
            cases x with
            | some err => exact Or.inl ⟨hbo, hno (by rw [hpo]; exact fun h => nomatch h)⟩
            | none =>
              dsimp only [andThen] at hpo
              rw [assertion_quiet hm] at hpo
              refine Or.inr ⟨by rw [hpo]; exact hbo, by rw [hpo], fun ob' td' h1 h2 ha e' he' => ?_⟩
              have h1' : e.obj? i o = some ob' := h1
              rw [ho] at h1'; cases h1'
              have h2' : e.taskDef? i ob.task = some td' := h2
              rw [htd] at h2'; cases h2'
              rw [he']
              exact callPost_done hc ha
  constructor
  · intro key hk
    have hne : key ≠ e.watchKey i ob.task.id := fun h => hk ((hkey key).2 h)
    rcases hall with ⟨h, _⟩ | ⟨h, _⟩
    · rw [h]
    · rw [h]; exact Book.mod_other hne _
  · refine ⟨fun key hk => ?_, ?_⟩
    · rcases hall with ⟨h, _⟩ | ⟨h, _⟩
      · rw [h]; exact hk
      · rw [h]; exact Book.mod_none hk _
    intro key r hw hr
    cases (hkey key).1 hw
    rcases hall with ⟨h, hs⟩ | ⟨h, hs⟩
    · exact noted_kept hr none (fun _ h => nomatch h) hs h
    · exact noted_of hr (hp _ _ hr) (ty := .activity) none (fun _ h => nomatch h) hs h

/-- One trial. -/
theorem bookTrial_noted (hm : NoModeError env) (b : Book) (hp : AllPrimitive b) (t : Trial) :
    (∀ key, ¬ WatchedBy i o t key → bookTrial env J i o b t key = b key) ∧
    (∀ key, b key = none → bookTrial env J i o b t key = none) ∧
    ∀ key r, WatchedBy i o t key → b key = some r →
      ∃ r', bookTrial env J i o b t key = some r' ∧ r'.type = r.type ∧ Noted env J i o t key r r' ∧ StatusNoted env i o t r.result r'.result ∧
        r'.checks.map (fun c => (c.empty, c.primitive)) = r.checks.map (fun c => (c.empty, c.primitive)) := by
  obtain ⟨p, e⟩ := t
  unfold bookTrial
  cases p with
  | true => exact bookPost_noted hm b hp e
  | false => exact bookOnce_noted hm b hp e

end Eng

/-! ### All trials -/

/-- What the trials `l` do to the book. -/
def bookAll (env : Env) (J : Judge) (b : Book) (l : List (Nat × Nat × Eng.Trial)) : Book :=
  l.foldl (fun b x => Eng.bookTrial env J x.1 x.2.1 b x.2.2) b

theorem snoc_induct {α : Type} {P : List α → Prop} (h0 : P []) (h1 : ∀ l x, P l → P (l ++ [x])) (l : List α) : P l := by
  have : ∀ l : List α, P l.reverse := by
    intro l
    induction l with
    | nil => exact h0
    | cons x l ih => rw [List.reverse_cons]; exact h1 _ _ ih
  have h := this l.reverse
  rw [List.reverse_reverse] at h
  exact h

theorem bookAll_snoc (b : Book) (l : List (Nat × Nat × Eng.Trial)) (x : Nat × Nat × Eng.Trial) :
    bookAll env J b (l ++ [x]) = Eng.bookTrial env J x.1 x.2.1 (bookAll env J b l) x.2.2 := by
  unfold bookAll; rw [List.foldl_append]; rfl

theorem static_primitive {cs ds : List Check} (h : ds.map (fun c => (c.empty, c.primitive)) = cs.map (fun c => (c.empty, c.primitive)))
    (hp : ∀ c ∈ cs, c.primitive = true) : ∀ c ∈ ds, c.primitive = true := by
  intro c hc
  have h1 : (c.empty, c.primitive) ∈ cs.map (fun c => (c.empty, c.primitive)) := by rw [← h]; exact List.mem_map_of_mem hc
  obtain ⟨d, hd, he⟩ := List.mem_map.1 h1
  rw [← (Prod.mk.injEq .. ▸ he : d.empty = c.empty ∧ d.primitive = c.primitive).2]
  exact hp d hd

theorem static_const {cs ds : List Check} (h : ds.map (fun c => (c.empty, c.primitive)) = cs.map (fun c => (c.empty, c.primitive))) (v : Verdict) :
    ds.map (fun c => { c with result := v }) = cs.map (fun c => { c with result := v }) := by
  have : ∀ l : List Check, l.map (fun c => { c with result := v }) = (l.map (fun c => (c.empty, c.primitive))).map (fun p => Check.mk p.1 p.2 v) := by
    intro l; rw [List.map_map]; rfl
  rw [this ds, this cs, h]

/-- The last trial is not to be noted. -/
theorem Spec.NotedLast.keep {key : String} {r r' r'' : Report} {l : List (Nat × Nat × Eng.Trial)} {x : Nat × Nat × Eng.Trial}
    (h : NotedLast env J key r r' l) (hx : WatchedBy x.1 x.2.1 x.2.2 key → ¬ TrialSucceeded env x.1 x.2.1 x.2.2) (hc : r''.checks = r'.checks) :
    NotedLast env J key r r'' (l ++ [x]) := by
  have hext : ∀ l2 : List (Nat × Nat × Eng.Trial), (∀ y ∈ l2, WatchedBy y.1 y.2.1 y.2.2 key → ¬ TrialSucceeded env y.1 y.2.1 y.2.2) →
      ∀ y ∈ l2 ++ [x], WatchedBy y.1 y.2.1 y.2.2 key → ¬ TrialSucceeded env y.1 y.2.1 y.2.2 := by
    intro l2 h2 y hy
    rcases List.mem_append.1 hy with hy | hy
    · exact h2 y hy
    · cases List.mem_singleton.1 hy; exact hx
  cases h with
  | never hs hk => exact .never (hext _ hs) (hc.trans hk)
  | judged l1 l2 i o t hl hw hs he before hb hj =>
    exact .judged l1 (l2 ++ [x]) i o t (by rw [hl, List.append_assoc]; rfl) hw (hext _ hs) he before hb (by rw [hc]; exact hj)
  | unfit l1 l2 i o t hl hw hs hne he hj =>
    exact .unfit l1 (l2 ++ [x]) i o t (by rw [hl, List.append_assoc]; rfl) hw (hext _ hs) hne he (hc.trans hj)

theorem bookAll_noted (hm : NoModeError env) (b : Book) (hp : AllPrimitive b) (l : List (Nat × Nat × Eng.Trial)) :
    (∀ key, b key = none → bookAll env J b l key = none) ∧
    ∀ key r, b key = some r → ∃ r', bookAll env J b l key = some r' ∧ r'.type = r.type ∧ NotedLast env J key r r' l ∧
      r'.checks.map (fun c => (c.empty, c.primitive)) = r.checks.map (fun c => (c.empty, c.primitive)) := by
  induction l using snoc_induct with
  | h0 => exact ⟨fun _ h => h, fun key r hr => ⟨r, hr, rfl, .never (fun _ h => nomatch h) rfl, rfl⟩⟩
  | h1 l x ih =>
    have hp' : AllPrimitive (bookAll env J b l) := by
      intro key r hr
      cases hb : b key with
      | none => rw [ih.1 key hb] at hr; cases hr
      | some r0 =>
        obtain ⟨r', h1, _, _, h4⟩ := ih.2 key r0 hb
        rw [hr] at h1; cases h1
        exact static_primitive h4 (hp key r0 hb)
    obtain ⟨t1, t2, t3⟩ := Eng.bookTrial_noted (J := J) (i := x.1) (o := x.2.1) hm (bookAll env J b l) hp' x.2.2
    refine ⟨fun key hk => by rw [bookAll_snoc]; exact t2 key (ih.1 key hk), fun key r hr => ?_⟩
    rw [bookAll_snoc]
    obtain ⟨r', h1, h2, h3, h4⟩ := ih.2 key r hr
    by_cases hw : WatchedBy x.1 x.2.1 x.2.2 key
    · obtain ⟨r'', g1, g2, g3, _, g4⟩ := t3 key r' hw h1
      refine ⟨r'', g1, g2.trans h2, ?_, g4.trans h4⟩
      cases g3 with
      | kept hs hk => exact h3.keep (fun _ => hs) hk
      | judged he hj => exact .judged l [] x.1 x.2.1 x.2.2 rfl hw (fun _ h => nomatch h) (h2 ▸ he) r'.checks h4 hj
      | unfit hne he hj => exact .unfit l [] x.1 x.2.1 x.2.2 rfl hw (fun _ h => nomatch h) (h2 ▸ hne) he (hj.trans (static_const h4 _))
    · exact ⟨r', (t1 key hw).trans h1, h2, h3.keep (fun h => absurd h hw) rfl, h4⟩

namespace Tested

theorem step_eng (s : Tested) : (s.step env J).eng = s.eng.step env := by
  unfold step
  cases Timed.popped env s.eng with
  | none => rfl
  | some x => rfl

theorem step_idle {s : Tested} (h : Spec.next env s.eng = none) : (s.step env J).log = s.log ∧ (s.step env J).book = s.book := by
  unfold step
  rw [Timed.popped_eq, h]
  exact ⟨rfl, rfl⟩

theorem step_next {s : Tested} {w : WorkItem} (h : Spec.next env s.eng = some w) :
    (s.step env J).log = s.log ++ (Eng.execTrials env (afterPop env s.eng w) w.inst w.obj).map (fun t => (w.inst, w.obj, t)) ∧
    (s.step env J).book = (Eng.execTrials env (afterPop env s.eng w) w.inst w.obj).foldl (Eng.bookTrial env J w.inst w.obj) s.book := by
  unfold step
  rw [Timed.popped_eq, h]
  exact ⟨rfl, rfl⟩

theorem run_book (s : Tested) (hl : s.log = []) (n : Nat) : (run env J s n).book = bookAll env J s.book (run env J s n).log := by
  induction n with
  | zero => show s.book = bookAll env J s.book s.log; rw [hl]; rfl
  | succ n ih =>
    show ((run env J s n).step env J).book = bookAll env J s.book ((run env J s n).step env J).log
    cases h : Spec.next env (run env J s n).eng with
    | none => rw [(step_idle h).1, (step_idle h).2, ih]
    | some w =>
      rw [(step_next h).1, (step_next h).2, ih]
      unfold bookAll
      rw [List.foldl_append, List.foldl_map]

end Tested

/-! ### The trials are the attempts -/

namespace Eng

/-- A call of `EvalActivity` in the state before the attempt. -/
def trialOf (a : Attempt) : Trial := ⟨false, a.before⟩

theorem retryTrials_tried (n : Nat) (e : Eng) : ∃ a as, Retried env i o a as n ∧ a.before = e.setRetry i o n ∧
    (lastAttempt a as).after = (retryFrom env n e i o).1 ∧ (lastAttempt a as).result = (retryFrom env n e i o).2 ∧
    retryTrials env n e i o = (a :: as).map trialOf := by
  induction n generalizing e with
  | zero =>
    refine ⟨⟨e.setRetry i o 0, (evalOnce env (e.setRetry i o 0) i o).1, (evalOnce env (e.setRetry i o 0) i o).2⟩, [], ?_, rfl, rfl, rfl, rfl⟩
    exact ⟨rfl, fun _ => rfl⟩
  | succ n ih =>
    let a : Attempt := ⟨e.setRetry i o ((n : Int) + 1), (evalOnce env (e.setRetry i o (n + 1)) i o).1, (evalOnce env (e.setRetry i o (n + 1)) i o).2⟩
    have hreal : a.real env i o := rfl
    have single : ¬ a.again → retryFrom env (n + 1) e i o = (a.after, a.result) →
        retryTrials env (n + 1) e i o = [trialOf a] → ∃ a as, Retried env i o a as (n + 1) ∧
        a.before = e.setRetry i o ((n + 1 : Nat) : Int) ∧
        (lastAttempt a as).after = (retryFrom env (n + 1) e i o).1 ∧ (lastAttempt a as).result = (retryFrom env (n + 1) e i o).2 ∧
        retryTrials env (n + 1) e i o = (a :: as).map trialOf :=
      fun hna heq hsp => ⟨a, [], ⟨hreal, fun h => absurd h hna⟩, rfl, by rw [heq]; rfl, by rw [heq]; rfl, hsp⟩
    cases hr : a.result with
    | ok b =>
      have hev : evalOnce env (e.setRetry i o (n + 1)) i o = (a.after, .ok b) := by rw [← hr]
      apply single
      · rintro ⟨err, h1, _⟩; rw [hr] at h1; cases h1
      · unfold retryFrom
        rw [hev, hr]
      · rw [retryTrials, hev]; rfl
    | error err =>
      have hev : evalOnce env (e.setRetry i o (n + 1)) i o = (a.after, .error err) := by rw [← hr]
      cases hb : err.retriable with
      | false =>
        apply single
        · rintro ⟨err', h1, h2⟩; rw [hr] at h1; cases h1; rw [hb] at h2; cases h2
        · unfold retryFrom
          rw [hev, hr]
          simp [hb]
        · rw [retryTrials, hev]
          simp [hb, trialOf, a]
      | true =>
        have heq : retryFrom env (n + 1) e i o = retryFrom env n a.after i o := by
          conv => lhs; unfold retryFrom
          rw [hev]
          simp [hb]
        obtain ⟨b, bs, h1, h2, h3, h4, h5⟩ := ih a.after
        refine ⟨a, b :: bs, ⟨hreal, ⟨err, hr, hb⟩, ?_, h1⟩, rfl, ?_, ?_, ?_⟩
        · rw [h2]; exact Unseen.setRetry ..
        · rw [heq]; exact h3
        · rw [heq]; exact h4
        · rw [retryTrials, hev]
          dsimp only
          rw [if_pos hb, h5]
          rfl

/-- The state after the further trials. -/
def moreAfter (env : Env) (e1 : Eng) (may : Bool) (i o : Nat) : Eng :=
  if may && e1.hasRetry i o then
    match getRetry env e1 i o with
    | (e2, .error _) => e2
    | (e2, .ok c) => if 0 < c then (retryFrom env (c.toNat - 1) e2 i o).1 else e2
  else e1

/-- Further trials after an error. -/
theorem moreTrials_tried (e1 : Eng) (may : Bool) :
    (moreTrials env e1 may i o = [] ∧ ∀ j, calls (moreAfter env e1 may i o) j = calls e1 j) ∨
    ∃ a as n, Retried env i o a as n ∧ Unseen e1 a.before ∧ (∀ j, calls a.before j = calls e1 j) ∧ may = true ∧ moreTrials env e1 may i o = (a :: as).map trialOf ∧
      (lastAttempt a as).after = moreAfter env e1 may i o := by
  unfold moreTrials moreAfter
  by_cases hc : (may && e1.hasRetry i o) = true
  · rw [if_pos hc, if_pos hc]
    simp only [Bool.and_eq_true] at hc
    have hgl := Eng.LocalE.getRetry (env := env) (i := i) (o := o) e1
    have hgu := Spec.Unseen.getRetry (env := env) e1 i o
    generalize Eng.getRetry env e1 i o = q at hgl hgu
    obtain ⟨e2, rc⟩ := q
    cases rc with
    | error rerr => exact Or.inl ⟨rfl, hgl.calls⟩
    | ok c =>
      dsimp only at hgl hgu ⊢
      by_cases hpos : 0 < c
      · rw [if_pos hpos, if_pos hpos]
        obtain ⟨b, bs, h1, h2, h3, h4, h5⟩ := retryTrials_tried (env := env) (i := i) (o := o) (c.toNat - 1) e2
        refine Or.inr ⟨b, bs, _, h1, ?_, fun j => ?_, hc.1, h5, h3⟩
        · rw [h2]; exact Unseen.trans hgu (.setRetry ..)
        · rw [h2, (Eng.LocalE.setRetry (i := i) (o := o) e2 _).calls j, hgl.calls j]
      · rw [if_neg hpos, if_neg hpos]; exact Or.inl ⟨rfl, hgl.calls⟩
  · rw [if_neg hc, if_neg hc]; exact Or.inl ⟨rfl, fun _ => rfl⟩

theorem evalActivity_error {e e1 : Eng} {err : Err} (h : evalOnce env e i o = (e1, .error err)) :
    (evalActivity env e i o).1 = moreAfter env e1 err.retriable i o := by
  unfold evalActivity moreAfter
  rw [h]
  dsimp only
  split
  · generalize getRetry env e1 i o = q
    obtain ⟨e2, rc⟩ := q
    cases rc with
    | error _ => rfl
    | ok c => dsimp only; split <;> rfl
  · rfl

theorem postBasic_error {e e1 : Eng} {err : Err} (h : postOnce env e i o = (e1, .error err)) :
    (postBasic env e i o).1 = moreAfter env e1 err.isAct i o := by
  unfold postBasic moreAfter
  rw [h]
  dsimp only
  split
  · generalize getRetry env e1 i o = q
    obtain ⟨e2, rc⟩ := q
    cases rc with
    | error _ => rfl
    | ok c =>
      dsimp only
      split
      · generalize retryFrom env (c.toNat - 1) e2 i o = q
        obtain ⟨e3, x⟩ := q
        cases x with
        | error _ => rfl
        | ok b => cases b <;> rfl
      · rfl
  · rfl

theorem actTrials_tried (e : Eng) : ∃ a as n, Retried env i o a as n ∧ a.before = e ∧ actTrials env e i o = (a :: as).map trialOf ∧
    ∀ j, calls (evalActivity env e i o).1 j = calls (lastAttempt a as).after j := by
  let a : Attempt := ⟨e, (e.evalOnce env i o).1, (e.evalOnce env i o).2⟩
  have hreal : a.real env i o := rfl
  unfold actTrials
  cases hr : a.result with
  | ok b =>
    have hev : e.evalOnce env i o = (a.after, .ok b) := by rw [← hr]
    rw [hev]
    exact ⟨a, [], 0, ⟨hreal, fun _ => rfl⟩, rfl, rfl, fun j => by unfold evalActivity; rw [hev]; rfl⟩
  | error err =>
    have hev : e.evalOnce env i o = (a.after, .error err) := by rw [← hr]
    rw [hev]
    dsimp only
    have hm := evalActivity_error hev
    rw [hm]
    rcases moreTrials_tried (env := env) (i := i) (o := o) a.after err.retriable with ⟨h, hs⟩ | ⟨b, bs, n, h1, h2, _, h4, h5, h6⟩
    · rw [h]; exact ⟨a, [], 0, ⟨hreal, fun _ => rfl⟩, rfl, rfl, hs⟩
    · rw [h5]; exact ⟨a, b :: bs, n + 1, ⟨hreal, ⟨err, hr, h4⟩, h2, h1⟩, rfl, rfl, fun j => by rw [← h6]; rfl⟩

/-- The trials of a task that waited. -/
theorem postBasic_tried (e : Eng) {td : TaskDef} (hk : td.kind = .basic) : ∃ l, postTrials env e i o td = ⟨true, e⟩ :: l ∧
    ((l = [] ∧ ∀ j, calls (postBasic env e i o).1 j = calls (postOnce env e i o).1 j) ∨
    ∃ a as n, Retried env i o a as n ∧ (∀ j, calls a.before j = calls (postOnce env e i o).1 j) ∧
      (∃ err, (postOnce env e i o).2 = .error err ∧ err.isAct = true) ∧ l = (a :: as).map trialOf ∧
      (lastAttempt a as).after = (postBasic env e i o).1) := by
  unfold postTrials
  rw [hk]
  refine ⟨_, rfl, ?_⟩
  generalize hq : postOnce env e i o = q
  obtain ⟨e1, x⟩ := q
  cases x with
  | ok u => exact Or.inl ⟨rfl, fun _ => by unfold postBasic; rw [hq]⟩
  | error err =>
    dsimp only
    have hm := postBasic_error hq
    rw [hm]
    rcases moreTrials_tried (env := env) (i := i) (o := o) e1 err.isAct with ⟨h, hs⟩ | ⟨b, bs, n, h1, h2, h3, h4, h5, h6⟩
    · exact Or.inl ⟨h, hs⟩
    · exact Or.inr ⟨b, bs, n, h1, h3, ⟨err, rfl, h4⟩, h5, h6⟩

end Eng

end Flow
