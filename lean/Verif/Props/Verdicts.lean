import Verif.Proofs.Verdicts
import Verif.Props.Loops
import Verif.Props.Rounds
import Verif.Props.Results

/-
C102: the verdicts of a unit test.
-/

namespace Flow
open Spec

variable {env : Env} {J : Judge}

/-- C102, observation: the book of the interceptor does not change the run. -/
theorem C102_same (id uri : String) (d : Def) (ins : AMap String Val) (b : Book) (n : Nat) :
    (Tested.run env J (Tested.init env id uri d ins b) n).eng = Eng.run env (Eng.init env id uri d ins) n := by
  induction n with
  | zero => rfl
  | succ n ih =>
    show (Tested.step env J _).eng = Eng.step env _
    rw [Tested.step_eng, ih]

/-- C102, as far as it holds: after every run the assertions of a task interceptor are as the last evaluation of its task left them that
succeeded or whose activity failed. If this evaluation ended as the interceptor requires (assertions on the activity: with success;
assertions on the error: with an error of the activity), every assertion has the verdict that is true in the state after it: Pass if its
expression is true, else Fail; NotExecuted if it is empty. Otherwise the verdict is AssertionNotExecuted. If there was no such evaluation,
nothing has changed. Other interceptors are not touched.

Partial: the verdict is not about all evaluations, see `C102_negation_round` and `C102_negation_retry`; an activity that panics or
that fails after waiting is not noted, see `C102_negation_panic` and `C102_negation_called`; the supported type of assertion is assumed. -/
theorem C102_verdicts_partial (hm : NoModeError env) {b : Book} (hp : AllPrimitive b) (id uri : String) (d : Def) (ins : AMap String Val) (n : Nat)
    {key : String} {r : Report} (hr : b key = some r) :
    ∃ r', (Tested.run env J (Tested.init env id uri d ins b) n).book key = some r' ∧ r'.type = r.type ∧
      NotedLast env J key r r' (Tested.run env J (Tested.init env id uri d ins b) n).log := by
  rw [Tested.run_book _ rfl]
  obtain ⟨r', h1, h2, h3, _⟩ := (bookAll_noted (J := J) hm b hp _).2 key r hr
  exact ⟨r', h1, h2, h3⟩

/-- C102, no invented verdicts: an assertion that was not Pass in the beginning is Pass only if its expression was true in the state after an
evaluation of its task that ended as required; and Fail only if it was not. -/
theorem C102_true (hm : NoModeError env) {b : Book} (hp : AllPrimitive b) (id uri : String) (d : Def) (ins : AMap String Val) (n : Nat)
    {key : String} {r r' : Report} (hr : b key = some r) (hr' : (Tested.run env J (Tested.init env id uri d ins b) n).book key = some r')
    {k : Nat} {c c' : Check} (hc : r.checks[k]? = some c) (hc' : r'.checks[k]? = some c') (hnew : c.result = .notExecuted) :
    (c'.result = .pass → ∃ x ∈ (Tested.run env J (Tested.init env id uri d ins b) n).log, WatchedBy x.1 x.2.1 x.2.2 key ∧
      TrialEnds env x.1 x.2.1 x.2.2 r.type ∧ J (trialAfter env x.1 x.2.1 x.2.2) x.1 key k = .value true) ∧
    (c'.result = .fail → ∃ x ∈ (Tested.run env J (Tested.init env id uri d ins b) n).log, WatchedBy x.1 x.2.1 x.2.2 key ∧
      TrialEnds env x.1 x.2.1 x.2.2 r.type ∧ J (trialAfter env x.1 x.2.1 x.2.2) x.1 key k ≠ .value true) := by
  obtain ⟨r1, h1, _, h3⟩ := C102_verdicts_partial (J := J) hm hp id uri d ins n hr
  rw [hr'] at h1; cases h1
  cases h3 with
  | never hs h =>
    rw [h, hc] at hc'; cases hc'
    rw [hnew]
    exact ⟨(fun h => nomatch h), (fun h => nomatch h)⟩
  | unfit l1 l2 i o t hl hw hs hne he h =>
    rw [h, List.getElem?_map, hc] at hc'
    cases hc'
    exact ⟨(fun h => nomatch h), (fun h => nomatch h)⟩
  | judged l1 l2 i o t hl hw hs he before hb h =>
    have hmem : (i, o, t) ∈ (Tested.run env J (Tested.init env id uri d ins b) n).log := by
      rw [hl]; exact List.mem_append_right _ (.head _)
    cases hbk : before[k]? with
    | none =>
      have h1 := List.getElem?_eq_none_iff.1 hbk
      have h2 := (List.getElem?_eq_some_iff.1 hc').1
      rw [h.1] at h2
      omega
    | some c0 =>
      have h1 := h.2 k c0 hbk
      rw [hc'] at h1
      cases h1
      dsimp only
      unfold trueVerdict
      by_cases he0 : c0.empty = true
      · rw [if_pos he0]; exact ⟨(fun h => nomatch h), (fun h => nomatch h)⟩
      · rw [if_neg he0]
        cases hj : J (trialAfter env i o t) i key k with
        | value v =>
          cases v with
          | true => exact ⟨fun _ => ⟨(i, o, t), hmem, hw, he, hj⟩, (fun h => nomatch h)⟩
          | false => exact ⟨(fun h => nomatch h), fun _ => ⟨(i, o, t), hmem, hw, he, by show J _ _ _ _ ≠ _; rw [hj]; exact fun h => nomatch h⟩⟩
        | invalid => exact ⟨(fun h => nomatch h), fun _ => ⟨(i, o, t), hmem, hw, he, by show J _ _ _ _ ≠ _; rw [hj]; exact fun h => nomatch h⟩⟩
        | failed => exact ⟨(fun h => nomatch h), fun _ => ⟨(i, o, t), hmem, hw, he, by show J _ _ _ _ ≠ _; rw [hj]; exact fun h => nomatch h⟩⟩

theorem bookAll_status (hm : NoModeError env) (b : Book) (hp : AllPrimitive b) (l : List (Nat × Nat × Eng.Trial)) {key : String} {r : Report}
    (hr : b key = some r) {r' : Report} (hr' : bookAll env J b l key = some r') :
    r'.result = r.result ∨ ∃ x ∈ l, WatchedBy x.1 x.2.1 x.2.2 key ∧
      (r'.result = .mocked ∨ r'.result = .pass ∧ TrialCalled env x.1 x.2.1 x.2.2 ∨ r'.result = .fail ∧ TrialFailed env x.1 x.2.1 x.2.2) := by
  induction l using snoc_induct generalizing r' with
  | h0 =>
    have : b key = some r' := hr'
    rw [hr] at this; cases this
    exact Or.inl rfl
  | h1 l x ih =>
    obtain ⟨r0, h0, _, _, hst⟩ := (bookAll_noted (J := J) hm b hp l).2 key r hr
    have hp' : AllPrimitive (bookAll env J b l) := by
      intro key r hr
      cases hb : b key with
      | none => rw [(bookAll_noted (J := J) hm b hp l).1 key hb] at hr; cases hr
      | some r0 =>
        obtain ⟨r', h1, _, _, h4⟩ := (bookAll_noted (J := J) hm b hp l).2 key r0 hb
        rw [hr] at h1; cases h1
        exact static_primitive h4 (hp key r0 hb)
    obtain ⟨t1, _, t3⟩ := Eng.bookTrial_noted (J := J) (i := x.1) (o := x.2.1) hm (bookAll env J b l) hp' x.2.2
    rw [bookAll_snoc] at hr'
    have hold : r'.result = r0.result → r'.result = r.result ∨ ∃ y ∈ l ++ [x], WatchedBy y.1 y.2.1 y.2.2 key ∧
        (r'.result = .mocked ∨ r'.result = .pass ∧ TrialCalled env y.1 y.2.1 y.2.2 ∨ r'.result = .fail ∧ TrialFailed env y.1 y.2.1 y.2.2) := by
      intro h
      rw [h]
      rcases ih h0 with h | ⟨y, hy, h⟩
      · exact Or.inl h
      · exact Or.inr ⟨y, List.mem_append_left _ hy, h⟩
    by_cases hw : WatchedBy x.1 x.2.1 x.2.2 key
    · obtain ⟨r1, g1, _, _, g4, _⟩ := t3 key r0 hw h0
      rw [hr'] at g1; cases g1
      generalize hv : r'.result = v at g4
      cases g4 with
      | kept => rw [← hv]; exact hold hv
      | mocked => exact Or.inr ⟨x, List.mem_append_right _ (.head _), hw, Or.inl rfl⟩
      | pass h => exact Or.inr ⟨x, List.mem_append_right _ (.head _), hw, Or.inr (Or.inl ⟨rfl, h⟩)⟩
      | fail h => exact Or.inr ⟨x, List.mem_append_right _ (.head _), hw, Or.inr (Or.inr ⟨rfl, h⟩)⟩
    · rw [t1 key hw, h0] at hr'
      cases hr'
      exact hold rfl

/-- C102, status of activities: a status that was not there in the beginning comes from an evaluation of the task; Pass only if its activity was
called in it, Fail only if it was called and failed. -/
theorem C102_status_partial (hm : NoModeError env) {b : Book} (hp : AllPrimitive b) (id uri : String) (d : Def) (ins : AMap String Val) (n : Nat)
    {key : String} {r r' : Report} (hr : b key = some r) (hr' : (Tested.run env J (Tested.init env id uri d ins b) n).book key = some r') :
    r'.result = r.result ∨ ∃ x ∈ (Tested.run env J (Tested.init env id uri d ins b) n).log, WatchedBy x.1 x.2.1 x.2.2 key ∧
      (r'.result = .mocked ∨ r'.result = .pass ∧ TrialCalled env x.1 x.2.1 x.2.2 ∨ r'.result = .fail ∧ TrialFailed env x.1 x.2.1 x.2.2) := by
  rw [Tested.run_book _ rfl] at hr'
  exact bookAll_status hm b hp _ hr hr'

/-- C102, evaluations: when a task is evaluated, the trials that are noted are exactly the attempts to evaluate its activity: consecutive, each
but the last failed in a way that allows another one, and no activity is called after the last. There are none if an iterator has no further value. -/
theorem C102_evaluation {s : Tested} {i o : Nat} {t : TaskRef} {e' : Eng} {r : Eng.EvalOut} (hev : Evaluates env s.eng i o t e' r)
    (hst : (s.eng.obj? i o).map (·.status) ≠ some .waiting) {td : TaskDef} (htd : s.eng.taskDef? i t = some td) :
    (td.kind = .iterator ∧ (s.step env J).log = s.log ∧ (s.step env J).book = s.book ∧ ∀ j, calls e' j = calls s.eng j) ∨
    ∃ a as n, Retried env i o a as n ∧ (∀ j, calls a.before j = calls s.eng j) ∧ (∀ j, calls e' j = calls (lastAttempt a as).after j) ∧
      (s.step env J).log = s.log ++ (a :: as).map (fun x => (i, o, Eng.trialOf x)) := by
  obtain ⟨⟨w, hn, rfl, rfl, hout⟩, ht⟩ := hev
  cases hob : s.eng.obj? w.inst w.obj with
  | none => rw [hob] at ht; cases ht
  | some ob =>
    rw [hob] at ht hst
    cases ht
    have hob' : (afterPop env s.eng w).obj? w.inst w.obj = some ob := hob
    have htd' : (afterPop env s.eng w).taskDef? w.inst ob.task = some td := htd
    obtain ⟨hlog, hbook⟩ := Tested.step_next (J := J) hn
    have hx : (e', r) = Eng.evalKind env (afterPop env s.eng w) w.inst w.obj td ∧
        Eng.execTrials env (afterPop env s.eng w) w.inst w.obj = Eng.evalTrials env (afterPop env s.eng w) w.inst w.obj td := by
      unfold outcome at hout
      unfold Eng.execTrials
      rw [hob'] at hout ⊢
      dsimp only at hout ⊢
      rw [htd'] at hout ⊢
      dsimp only at hout ⊢
      have hne : ob.status ≠ .waiting := fun h => hst (congrArg some h)
      cases hs : ob.status <;> rw [hs] at hout <;> simp at hout <;> simp_all
    obtain ⟨hx1, hx2⟩ := hx
    have he' : e' = (Eng.evalKind env (afterPop env s.eng w) w.inst w.obj td).1 := congrArg Prod.fst hx1
    rw [hlog, hbook, hx2]
    have act : ∀ f, (∀ j, calls f j = calls s.eng j) → (∀ j, calls e' j = calls (Eng.evalActivity env f w.inst w.obj).1 j) →
        Eng.evalTrials env (afterPop env s.eng w) w.inst w.obj td = Eng.actTrials env f w.inst w.obj →
        ∃ a as n, Retried env w.inst w.obj a as n ∧ (∀ j, calls a.before j = calls s.eng j) ∧ (∀ j, calls e' j = calls (lastAttempt a as).after j) ∧
        s.log ++ (Eng.evalTrials env (afterPop env s.eng w) w.inst w.obj td).map (fun t => (w.inst, w.obj, t)) =
          s.log ++ (a :: as).map (fun x => (w.inst, w.obj, Eng.trialOf x)) := by
      intro f hf hc heq
      obtain ⟨a, as, n, h1, h2, h3, h4⟩ := Eng.actTrials_tried (env := env) (i := w.inst) (o := w.obj) f
      refine ⟨a, as, n, h1, fun j => by rw [h2]; exact hf j, fun j => (hc j).trans (h4 j), ?_⟩
      rw [heq, h3, List.map_map]
      rfl
    have hstat : ∀ (e : Eng) (st : TaskStatus) j, calls (e.setStatus w.inst w.obj st) j = calls e j := fun e st j => Eng.calls_setStatus_all e st j
    cases hk : td.kind with
    | basic =>
      refine Or.inr (act (afterPop env s.eng w) (fun _ => rfl) (fun j => ?_) (by unfold Eng.evalTrials; rw [hk]))
      rw [he']
      unfold Eng.evalKind
      rw [hk]
      show calls (Eng.evalBasic env _ _ _).1 j = _
      unfold Eng.evalBasic
      generalize Eng.evalActivity env (afterPop env s.eng w) w.inst w.obj = q
      obtain ⟨e1, x⟩ := q
      cases x with
      | error _ => rfl
      | ok b => cases b <;> rfl
    | doWhile =>
      refine Or.inr (act _ (fun j => (Eng.LocalE.dwInit (i := w.inst) (o := w.obj) (afterPop env s.eng w)).calls j) (fun j => ?_) (by unfold Eng.evalTrials; rw [hk]))
      rw [he']
      unfold Eng.evalKind
      rw [hk]
      show calls (Eng.evalDoWhile env _ _ _ _).1 j = _
      unfold Eng.evalDoWhile
      generalize Eng.evalActivity env ((afterPop env s.eng w).dwInit w.inst w.obj) w.inst w.obj = q
      obtain ⟨e1, x⟩ := q
      cases x with
      | error _ => exact hstat _ _ j
      | ok b =>
        cases b with
        | false => exact hstat _ _ j
        | true => exact (Eng.LocalE.dwUpdate (i := w.inst) (o := w.obj) e1).calls j
    | iterator =>
      have hev : Eng.evalTrials env (afterPop env s.eng w) w.inst w.obj td =
          match Eng.iterRound env (afterPop env s.eng w) w.inst w.obj td with
          | none => []
          | some e1 => Eng.actTrials env e1 w.inst w.obj := by unfold Eng.evalTrials; rw [hk]; rfl
      unfold Eng.evalKind at he'
      rw [hk] at he'
      change e' = (Eng.evalIter env (afterPop env s.eng w) w.inst w.obj td).1 at he'
      unfold Eng.evalIter at he'
      unfold Eng.iterRound at hev
      cases hg : Eng.getIter env (afterPop env s.eng w) w.inst w.obj td with
      | error err =>
        rw [hg] at he' hev
        refine Or.inl ⟨rfl, by rw [hev]; exact List.append_nil _, by rw [hev]; rfl, fun j => by rw [he']; rfl⟩
      | ok oi =>
        rw [hg] at he' hev
        cases oi with
        | none => exact Or.inl ⟨rfl, by rw [hev]; exact List.append_nil _, by rw [hev]; rfl, fun j => by rw [he']; rfl⟩
        | some it =>
          dsimp only at he' hev
          by_cases hnx : it.next.2 = false
          · rw [if_pos hnx] at he' hev
            exact Or.inl ⟨rfl, by rw [hev]; exact List.append_nil _, by rw [hev]; rfl, fun j => by rw [he']; exact Eng.calls_modO (afterPop env s.eng w) _ j⟩
          · rw [if_neg hnx] at he' hev
            cases hv : it.next.1.value with
            | none =>
              rw [hv] at he' hev
              exact Or.inl ⟨rfl, by rw [hev]; exact List.append_nil _, by rw [hev]; rfl, fun j => by rw [he']; rfl⟩
            | some v =>
              rw [hv] at he' hev
              refine Or.inr (act _ (fun j => Eng.calls_modO (afterPop env s.eng w) _ j) (fun j => ?_) hev)
              dsimp only at he'
              rw [he']
              generalize Eng.evalActivity env _ w.inst w.obj = q
              obtain ⟨e1, x⟩ := q
              cases x with
              | error _ => exact hstat _ _ j
              | ok b =>
                cases b with
                | false => exact hstat _ _ j
                | true => rfl

/-- C102, resumed tasks: when a task that was waiting goes on, the trials that are noted are its resumption, and if it is repeated after that, exactly the
attempts to evaluate its activity. -/
theorem C102_resumed {s : Tested} {i o : Nat} {t : TaskRef} {e' : Eng} {r : Eng.EvalOut} (hev : Evaluates env s.eng i o t e' r)
    (hst : (s.eng.obj? i o).map (·.status) = some .waiting) {td : TaskDef} (htd : s.eng.taskDef? i t = some td) :
    ∃ f l, (∀ j, calls f j = calls s.eng j) ∧ (s.step env J).log = s.log ++ (i, o, ⟨true, f⟩) :: l ∧
      ((l = [] ∧ ∀ j, calls e' j = calls (Eng.postOnce env f i o).1 j) ∨
      ∃ a as n, Retried env i o a as n ∧ (∀ j, calls a.before j = calls (Eng.postOnce env f i o).1 j) ∧
        (∃ err, (Eng.postOnce env f i o).2 = .error err) ∧
        l = (a :: as).map (fun x => (i, o, Eng.trialOf x)) ∧ ∀ j, calls e' j = calls (lastAttempt a as).after j) := by
  obtain ⟨⟨w, hn, rfl, rfl, hout⟩, ht⟩ := hev
  cases hob : s.eng.obj? w.inst w.obj with
  | none => rw [hob] at ht; cases ht
  | some ob =>
    rw [hob] at ht hst
    cases ht
    have hob' : (afterPop env s.eng w).obj? w.inst w.obj = some ob := hob
    have htd' : (afterPop env s.eng w).taskDef? w.inst ob.task = some td := htd
    obtain ⟨hlog, _⟩ := Tested.step_next (J := J) hn
    have hw : ob.status = .waiting := Option.some.inj hst
    have hx : (e', r) = Eng.postKind env (afterPop env s.eng w) w.inst w.obj td ∧
        Eng.execTrials env (afterPop env s.eng w) w.inst w.obj = Eng.postTrials env (afterPop env s.eng w) w.inst w.obj td := by
      unfold outcome at hout
      unfold Eng.execTrials
      rw [hob'] at hout ⊢
      dsimp only at hout ⊢
      rw [htd'] at hout ⊢
      dsimp only at hout ⊢
      rw [hw] at hout ⊢
      exact ⟨(Option.some.inj hout).symm, rfl⟩
    obtain ⟨hx1, hx2⟩ := hx
    have he' : e' = (Eng.postKind env (afterPop env s.eng w) w.inst w.obj td).1 := congrArg Prod.fst hx1
    have hstat : ∀ (e : Eng) (st : TaskStatus) j, calls (e.setStatus w.inst w.obj st) j = calls e j := fun e st j => Eng.calls_setStatus_all e st j
    rw [hlog, hx2]
    unfold Eng.postKind at he'
    cases hk : td.kind with
    | basic =>
      rw [hk] at he'
      change e' = (Eng.postBasic env (afterPop env s.eng w) w.inst w.obj).1 at he'
      obtain ⟨l, h1, h2⟩ := Eng.postBasic_tried (env := env) (i := w.inst) (o := w.obj) (afterPop env s.eng w) hk
      refine ⟨afterPop env s.eng w, l.map (fun t => (w.inst, w.obj, t)), fun _ => rfl, by rw [h1]; rfl, ?_⟩
      rcases h2 with ⟨rfl, hc⟩ | ⟨a, as, n, h3, h4, ⟨err, h5, _⟩, rfl, h6⟩
      · exact Or.inl ⟨rfl, fun j => by rw [he']; exact hc j⟩
      · exact Or.inr ⟨a, as, n, h3, h4, ⟨err, h5⟩, by rw [List.map_map]; rfl, fun j => by rw [he', h6]⟩
    | iterator =>
      rw [hk] at he'
      change e' = (Eng.postIter env (afterPop env s.eng w) w.inst w.obj).1 at he'
      refine ⟨afterPop env s.eng w, [], fun _ => rfl, by unfold Eng.postTrials; rw [hk]; rfl, Or.inl ⟨rfl, fun j => ?_⟩⟩
      rw [he']
      unfold Eng.postIter
      generalize Eng.postOnce env (afterPop env s.eng w) w.inst w.obj = q
      obtain ⟨e1, x⟩ := q
      cases x with
      | error _ => exact hstat _ _ j
      | ok u =>
        dsimp only
        split
        · exact hstat _ _ j
        · exact hstat _ _ j
    | doWhile =>
      rw [hk] at he'
      change e' = (Eng.postDoWhile env (afterPop env s.eng w) w.inst w.obj td).1 at he'
      refine ⟨(afterPop env s.eng w).dwInit w.inst w.obj, [], fun j => (Eng.LocalE.dwInit (i := w.inst) (o := w.obj) (afterPop env s.eng w)).calls j,
        by unfold Eng.postTrials; rw [hk]; rfl, Or.inl ⟨rfl, fun j => ?_⟩⟩
      rw [he']
      unfold Eng.postDoWhile
      generalize Eng.postOnce env ((afterPop env s.eng w).dwInit w.inst w.obj) w.inst w.obj = q
      obtain ⟨e1, x⟩ := q
      cases x with
      | error _ => exact hstat _ _ j
      | ok u => exact ((Eng.LocalE.dwUpdate (i := w.inst) (o := w.obj) (e1.setStatus w.inst w.obj .done)).calls j).trans (hstat _ _ j)

/-! ### What an attempt writes down -/

/-- An attempt in which the activity is called: the inputs can be determined and are accepted, the activity is neither skipped nor mocked, and is
no call of a flow. `a` is its answer. -/
structure Answers (env : Env) (i o : Nat) (e : Eng) (ob : Obj) (td : TaskDef) (p : Eng) (a : ActOut) : Prop where
  obj : e.obj? i o = some ob
  task : e.taskDef? i ob.task = some td
  inputs : ∃ e1, Eng.applyInputMapper env e i o td.name = (e1, none) ∧ Eng.inputInterceptor env e1 i o ob = (p, true)
  accepted : env.inSchema p i o = none
  notMocked : Eng.mocked env p i ob = false
  noFlow : ∀ uri, td.act ≠ .subflow uri
  answer : env.act (p.modI i (fun I => { I with trace := .evalAct o ob.task :: I.trace })) i o = a

theorem Answers.call {e : Eng} {i o : Nat} {ob : Obj} {td : TaskDef} {p : Eng} {a : ActOut} (h : Answers env i o e ob td p a) :
    ∃ e3, Eng.callActivity env p i o ob td = match a.res with
      | .done => (e3, .ok true, false)
      | .wait => (e3, .ok false, false)
      | .err err => (e3, .error (err.setActivity td.name), false)
      | .panic m => (e3, .error (.eval td.name "unhandled" m), true) := by
  refine ⟨(p.modI i (fun I => { I with trace := .evalAct o ob.task :: I.trace })).applyActOut i o a, ?_⟩
  unfold Eng.callActivity
  cases ha : td.act with
  | subflow uri => exact absurd ha (h.noFlow uri)
  | user => dsimp only; rw [h.answer]; cases a.res <;> rfl
  | async => dsimp only; rw [h.answer]; cases a.res <;> rfl

theorem Answers.book {e : Eng} {i o : Nat} {ob : Obj} {td : TaskDef} {p : Eng} {a : ActOut} (h : Answers env i o e ob td p a) (b : Book) :
    Eng.bookTrial env J i o b ⟨false, e⟩ = match Eng.callActivity env p i o ob td with
      | (e3, .error err, panicked) =>
        if panicked then b else (b.mark (e.watchKey i ob.task.id) .fail).assert (e.watchKey i ob.task.id) .exception
          (J (e3.evalErrorData i ob.task.id err) i (e.watchKey i ob.task.id))
      | (e3, .ok true, _) => Eng.bookDone env J (b.mark (e.watchKey i ob.task.id) .pass) e3 i o (e.watchKey i ob.task.id) ob td
      | (_, .ok false, _) => b.mark (e.watchKey i ob.task.id) .pass := by
  obtain ⟨e1, h1, h2⟩ := h.inputs
  show Eng.bookOnce env J b e i o = _
  unfold Eng.bookOnce
  rw [h.obj]; dsimp only
  rw [h.task]; dsimp only
  rw [h1]; dsimp only
  rw [h2]
  unfold Eng.bookWith
  rw [if_neg (fun h => nomatch h)]
  dsimp only
  rw [h.accepted]; dsimp only
  rw [h.notMocked]
  rfl

theorem Answers.eval {e : Eng} {i o : Nat} {ob : Obj} {td : TaskDef} {p : Eng} {a : ActOut} (h : Answers env i o e ob td p a) {e3 : Eng} {err : Err}
    (hc : Eng.callActivity env p i o ob td = (e3, .error err, false)) :
    Eng.evalOnce env e i o = (e3.evalErrorData i ob.task.id err, .error err) := by
  obtain ⟨e1, h1, h2⟩ := h.inputs
  unfold Eng.evalOnce
  rw [h.obj]; dsimp only
  rw [h.task]; dsimp only
  rw [h1]; dsimp only
  rw [h2]
  unfold Eng.evalWith
  rw [if_neg (fun h => nomatch h)]
  dsimp only
  rw [h.accepted]; dsimp only
  rw [h.notMocked]
  rw [hc]
  rfl

theorem Answers.key {e : Eng} {i o : Nat} {ob : Obj} {td : TaskDef} {p : Eng} {a : ActOut} (h : Answers env i o e ob td p a) {key : String}
    (hw : WatchedBy i o ⟨false, e⟩ key) : key = e.watchKey i ob.task.id := by
  obtain ⟨I, ob', h1, h2, h3⟩ := hw
  obtain ⟨I', h4, h5⟩ := Eng.obj?_some h.obj
  rw [show e.insts[i]? = some I from h1] at h4
  cases h4
  rw [h2] at h5; cases h5
  rw [Eng.watchKey_eq h1, h3]

/-- C102, failures are noted: an activity that answers with an error gets the status Fail, assertions on the error get the verdict that is true in the state
after the attempt, other assertions get AssertionNotExecuted. -/
theorem C102_failure {e : Eng} {i o : Nat} {ob : Obj} {td : TaskDef} {p : Eng} {a : ActOut} (h : Answers env i o e ob td p a) {err : Err} (ha : a.res = .err err)
    {b : Book} {key : String} {r : Report} (hw : WatchedBy i o ⟨false, e⟩ key) (hr : b key = some r) (hp : ∀ c ∈ r.checks, c.primitive = true) :
    ∃ r', Eng.bookTrial env J i o b ⟨false, e⟩ key = some r' ∧ r'.result = .fail ∧
      (r.type = .exception → JudgedBy env J i o ⟨false, e⟩ key r.checks r'.checks) ∧
      (r.type ≠ .exception → r'.checks = r.checks.map (fun c => { c with result := .assertionNotExecuted })) := by
  obtain ⟨e3, hc⟩ := h.call
  rw [ha] at hc
  have hk := h.key hw
  have hb := h.book (J := J) b
  rw [hc] at hb
  dsimp only at hb
  rw [if_neg (fun h => nomatch h), ← hk] at hb
  have haft : trialAfter env i o ⟨false, e⟩ = e3.evalErrorData i ob.task.id (err.setActivity td.name) := congrArg Prod.fst (h.eval hc)
  rw [hb]
  refine ⟨Report.assert (J (e3.evalErrorData i ob.task.id (err.setActivity td.name)) i key) .exception { r with result := .fail },
    Book.mod_self (Book.mod_self hr _) _, ?_, fun ht => ?_, fun ht => ?_⟩
  · unfold Report.assert; split <;> rfl
  · unfold Report.assert
    rw [if_pos ht]
    have := assertChecks_spec (J (e3.evalErrorData i ob.task.id (err.setActivity td.name)) i key) r.checks 0 hp
    refine ⟨this.1, fun k c hkc => ?_⟩
    rw [haft]
    have h2 := this.2 k c hkc
    rw [Nat.zero_add] at h2
    exact h2
  · unfold Report.assert
    rw [if_neg ht]

/-- C102, calls are noted: an activity that answers without an error gets the status Pass, also if it only answers that it will be waiting. -/
theorem C102_called {e : Eng} {i o : Nat} {ob : Obj} {td : TaskDef} {p : Eng} {a : ActOut} (h : Answers env i o e ob td p a) (ha : a.res = .done ∨ a.res = .wait)
    {b : Book} {key : String} {r : Report} (hw : WatchedBy i o ⟨false, e⟩ key) (hr : b key = some r) :
    ∃ r', Eng.bookTrial env J i o b ⟨false, e⟩ key = some r' ∧ r'.result = .pass := by
  obtain ⟨e3, hc⟩ := h.call
  have hk := h.key hw
  have hb := h.book (J := J) b
  rcases ha with ha | ha
  · rw [ha] at hc
    rw [hc] at hb
    dsimp only at hb
    rw [← hk] at hb
    rw [hb]
    unfold Eng.bookDone
    cases env.outSchema e3 i o with
    | some _ => exact ⟨_, Book.mod_self hr _, rfl⟩
    | none =>
      dsimp only
      split
      · exact ⟨_, Book.mod_self hr _, rfl⟩
      · exact ⟨_, Book.mod_self (Book.mod_self hr _) _, by unfold Report.assert; split <;> rfl⟩
  · rw [ha] at hc
    rw [hc] at hb
    dsimp only at hb
    rw [← hk] at hb
    rw [hb]
    exact ⟨_, Book.mod_self hr _, rfl⟩

/-- C102, mocks are noted: an activity that is mocked instead of being called gets the status Mocked. -/
theorem C102_mocked {e e1 p : Eng} {i o : Nat} {ob : Obj} {td : TaskDef} (ho : e.obj? i o = some ob) (htd : e.taskDef? i ob.task = some td)
    (hi : Eng.applyInputMapper env e i o td.name = (e1, none)) (hp : Eng.inputInterceptor env e1 i o ob = (p, true)) (hs : env.inSchema p i o = none)
    (hm : Eng.mocked env p i ob = true) {b : Book} {key : String} {r : Report} (hw : WatchedBy i o ⟨false, e⟩ key) (hr : b key = some r) :
    ∃ r', Eng.bookTrial env J i o b ⟨false, e⟩ key = some r' ∧ r'.result = .mocked := by
  have hk : key = e.watchKey i ob.task.id := by
    obtain ⟨I, ob', h1, h2, h3⟩ := hw
    obtain ⟨I', h4, h5⟩ := Eng.obj?_some ho
    rw [show e.insts[i]? = some I from h1] at h4
    cases h4
    rw [h2] at h5; cases h5
    rw [Eng.watchKey_eq h1, h3]
  show ∃ r', Eng.bookOnce env J b e i o key = some r' ∧ _
  unfold Eng.bookOnce
  rw [ho]; dsimp only
  rw [htd]; dsimp only
  rw [hi]; dsimp only
  rw [hp, ← hk]
  unfold Eng.bookWith
  rw [if_neg (fun h => nomatch h)]
  dsimp only
  rw [hs]; dsimp only
  rw [if_pos hm]
  unfold Eng.bookDone
  cases env.outSchema p i o with
  | some _ => exact ⟨_, Book.mod_self hr _, rfl⟩
  | none =>
    dsimp only
    generalize Eng.andThen (Eng.outputInterceptor env p i o ob td) (fun e1 => Eng.storeOutputs env e1 i o ob.task.id td) = q
    obtain ⟨e2, x⟩ := q
    cases x with
    | some _ => exact ⟨_, Book.mod_self hr _, rfl⟩
    | none => exact ⟨_, Book.mod_self (Book.mod_self hr _) _, by unfold Report.assert; split <;> rfl⟩

/-- C102, skipped activities: an activity that is not executed because the interceptor asks for that keeps its status. Its assertions are
judged all the same, with the verdict that is true in the state `e2` after its outputs were stored, unless that fails. -/
theorem C102_skipped {e e1 p : Eng} {i o : Nat} {ob : Obj} {td : TaskDef} (ho : e.obj? i o = some ob) (htd : e.taskDef? i ob.task = some td)
    (hi : Eng.applyInputMapper env e i o td.name = (e1, none)) (hp : Eng.inputInterceptor env e1 i o ob = (p, false))
    {b : Book} {key : String} {r : Report} (hw : WatchedBy i o ⟨false, e⟩ key) (hr : b key = some r) (hprim : ∀ c ∈ r.checks, c.primitive = true) :
    ∃ r', Eng.bookTrial env J i o b ⟨false, e⟩ key = some r' ∧ r'.result = r.result ∧
      (r' = r ∨ ∃ e2, (r.type = .activity → r'.checks.length = r.checks.length ∧
          ∀ (k : Nat) (c : Check), r.checks[k]? = some c → r'.checks[k]? = some { c with result := trueVerdict c (J e2 i key k) }) ∧
        (r.type ≠ .activity → r'.checks = r.checks.map (fun c => { c with result := .assertionNotExecuted }))) := by
  have hk : key = e.watchKey i ob.task.id := by
    obtain ⟨I, ob', h1, h2, h3⟩ := hw
    obtain ⟨I', h4, h5⟩ := Eng.obj?_some ho
    rw [show e.insts[i]? = some I from h1] at h4
    cases h4
    rw [h2] at h5; cases h5
    rw [Eng.watchKey_eq h1, h3]
  show ∃ r', Eng.bookOnce env J b e i o key = some r' ∧ _
  unfold Eng.bookOnce
  rw [ho]; dsimp only
  rw [htd]; dsimp only
  rw [hi]; dsimp only
  rw [hp, ← hk]
  unfold Eng.bookWith
  rw [if_pos rfl]
  unfold Eng.bookDone
  cases env.outSchema p i o with
  | some _ => exact ⟨r, hr, rfl, .inl rfl⟩
  | none =>
    dsimp only
    generalize Eng.andThen (Eng.outputInterceptor env p i o ob td) (fun e1 => Eng.storeOutputs env e1 i o ob.task.id td) = q
    obtain ⟨e2, x⟩ := q
    cases x with
    | some _ => exact ⟨r, hr, rfl, .inl rfl⟩
    | none =>
      refine ⟨_, Book.mod_self hr _, by unfold Report.assert; split <;> rfl, .inr ⟨e2, fun ht => ?_, fun ht => ?_⟩⟩
      · unfold Report.assert
        rw [if_pos ht]
        have := assertChecks_spec (J e2 i key) r.checks 0 hprim
        refine ⟨this.1, fun k c hkc => ?_⟩
        have h2 := this.2 k c hkc
        rw [Nat.zero_add] at h2
        exact h2
      · unfold Report.assert
        rw [if_neg ht]

/-- C102 does not hold for activities that panic: their failure is not noted, neither in the status nor in the assertions on the error. -/
theorem C102_negation_panic {e : Eng} {i o : Nat} {ob : Obj} {td : TaskDef} {p : Eng} {a : ActOut} (h : Answers env i o e ob td p a) {m : String}
    (ha : a.res = .panic m) (b : Book) : Eng.bookTrial env J i o b ⟨false, e⟩ = b := by
  obtain ⟨e3, hc⟩ := h.call
  rw [ha] at hc
  rw [h.book, hc]
  rfl

/-! ### The flow -/

/-- C102, assertions on the outputs or on the error of the flow: if the flow ended as the interceptor requires, every assertion has the verdict that is true
at the end; otherwise AssertionNotExecuted.

Partial: the status of the flow says nothing, see `C102_negation_flow`. -/
theorem C102_flow_partial (K : Nat → Judgement) (ty : WatchType) (r : Report) :
    (r.type = ty → (r.assertFlow K ty).1.checks.length = r.checks.length ∧
      ∀ (k : Nat) (c : Check), r.checks[k]? = some c → (r.assertFlow K ty).1.checks[k]? = some { c with result := trueVerdict c (K k) }) ∧
    (r.type ≠ ty → (r.assertFlow K ty).1.checks = r.checks.map (fun c => { c with result := .assertionNotExecuted })) := by
  have hall : ∀ (cs : List Check) (n : Nat), (flowChecks K n cs).length = cs.length ∧
      ∀ (k : Nat) (c : Check), cs[k]? = some c → (flowChecks K n cs)[k]? = some { c with result := trueVerdict c (K (n + k)) } := by
    intro cs
    induction cs with
    | nil => exact fun n => ⟨rfl, fun k c h => by simp at h⟩
    | cons c cs ih =>
      intro n
      obtain ⟨h1, h2⟩ := ih (n + 1)
      refine ⟨congrArg (· + 1) h1, fun k d hd => ?_⟩
      cases k with
      | zero =>
        cases hd
        show some (flowCheck (K n) c) = _
        congr 1
        unfold flowCheck trueVerdict
        by_cases he : c.empty = true
        · rw [if_pos he]; show _ = Check.mk _ _ (if c.empty = true then _ else _); rw [if_pos he]
        · rw [if_neg he]; show _ = Check.mk _ _ (if c.empty = true then _ else _); rw [if_neg he]
          cases K n with
          | value v => cases v <;> rfl
          | invalid => rfl
          | failed => rfl
      | succ k =>
        have := h2 k d hd
        rw [show n + 1 + k = n + (k + 1) by omega] at this
        exact this
  refine ⟨fun ht => ?_, fun ht => ?_⟩
  · unfold Report.assertFlow
    rw [if_pos ht]
    have := hall r.checks 0
    refine ⟨this.1, fun k c h => ?_⟩
    have := this.2 k c h
    rw [Nat.zero_add] at this
    exact this
  · unfold Report.assertFlow
    rw [if_neg ht]

/-- C102 does not hold for the status of the flow: it is Pass, whatever the verdicts are, and although the flow failed. -/
theorem C102_negation_flow (K : Nat → Judgement) (ty : WatchType) (r : Report) : (r.assertFlow K ty).1.result = .pass := by
  unfold Report.assertFlow
  split <;> rfl

/-- C102, errors of the flow: the flow takes the error for expected, and so does not report it as an error, only if there is an assertion on the error whose
expression could be evaluated, whatever its value is. -/
theorem C102_expected (K : Nat → Judgement) (ty : WatchType) (r : Report) :
    (r.assertFlow K ty).2 = true ↔ ty = .exception ∧ r.type = .exception ∧ ∃ (k : Nat) (c : Check) (v : Bool), r.checks[k]? = some c ∧ c.empty = false ∧ K k = .value v := by
  have hall : ∀ (cs : List Check) (n : Nat), anyEvaluated K n cs = true ↔
      ∃ (k : Nat) (c : Check) (v : Bool), cs[k]? = some c ∧ c.empty = false ∧ K (n + k) = .value v := by
    intro cs
    induction cs with
    | nil => exact fun n => ⟨(fun h => nomatch h), fun ⟨k, c, v, h, _⟩ => by simp at h⟩
    | cons c cs ih =>
      intro n
      show ((!c.empty && _) || anyEvaluated K (n + 1) cs) = true ↔ _
      rw [Bool.or_eq_true, Bool.and_eq_true, ih (n + 1)]
      constructor
      · rintro (⟨h1, h2⟩ | ⟨k, d, v, h1, h2, h3⟩)
        · cases hj : K n with
          | value v => exact ⟨0, c, v, rfl, by simpa using h1, hj⟩
          | invalid => rw [hj] at h2; cases h2
          | failed => rw [hj] at h2; cases h2
        · exact ⟨k + 1, d, v, h1, h2, by rw [← h3]; congr 1; omega⟩
      · rintro ⟨k, d, v, h1, h2, h3⟩
        cases k with
        | zero =>
          cases h1
          exact Or.inl ⟨by rw [h2]; rfl, by rw [show K n = .value v from h3]⟩
        | succ k => exact Or.inr ⟨k, d, v, h1, h2, by rw [← h3]; congr 1; omega⟩
  unfold Report.assertFlow
  by_cases ht : r.type = ty
  · rw [if_pos ht]
    dsimp only
    by_cases hx : ty = .exception
    · rw [if_pos hx, hall r.checks 0]
      constructor
      · rintro ⟨k, c, v, h1, h2, h3⟩; exact ⟨hx, ht.trans hx, k, c, v, h1, h2, by rwa [Nat.zero_add] at h3⟩
      · rintro ⟨_, _, k, c, v, h1, h2, h3⟩; exact ⟨k, c, v, h1, h2, by rwa [Nat.zero_add]⟩
    · rw [if_neg hx]
      exact ⟨(fun h => nomatch h), fun h => absurd h.1 hx⟩
  · rw [if_neg ht]
    exact ⟨(fun h => nomatch h), fun h => absurd (h.2.1.trans h.1.symm) ht⟩

example : (Report.assertFlow (fun _ => .value false) .exception ⟨.exception, .notExecuted, [{}]⟩).2 = true := by decide
example : (Report.assertFlow (fun _ => .value false) .activity ⟨.activity, .notExecuted, [{}, { empty := true }]⟩).1.checks.map (·.result) =
    [.fail, .notExecuted] := by decide

/-! ### Concrete runs -/

/-- The book with one interceptor for task A of the flow f. -/
def watching (ty : WatchType) : Book := fun key => if key = "f-A" then some ⟨ty, .notExecuted, [{}]⟩ else none

/-- The status and the verdicts of the interceptor. -/
def verdicts (s : Tested) : Option (Verdict × List Verdict) := (s.book "f-A").map (fun r => (r.result, r.checks.map (·.result)))

/-- The assertion: A has been called at least three times. -/
def thrice : Judge := fun e i _ _ => .value (decide (3 ≤ (calls e i).length))

/-- A test of the run of the flow. -/
def testedRun (env : Env) (d : Def) (ty : WatchType) (n : Nat) : Tested := Tested.run env thrice (Tested.init env "1" "u" d [] (watching ty)) n

theorem watching_primitive (ty : WatchType) : AllPrimitive (watching ty) := by
  intro key r h c hc
  unfold watching at h
  split at h
  · cases h
    cases hc with
    | head => rfl
    | tail _ h => cases h
  · cases h

/-- C102 does not hold for all evaluations of a task in a loop: the assertion is false after the first two of three iterations, and the verdict is Pass. -/
theorem C102_negation_round : NoModeError loopEnv ∧ AllPrimitive (watching .activity) ∧
    flowStatus (testedRun loopEnv (loopFlow .iterator .user) .activity 20).eng 0 = some .completed ∧
    (testedRun loopEnv (loopFlow .iterator .user) .activity 20).log.map
      (fun x => (x.1, x.2.1, decide (thrice (trialAfter loopEnv x.1 x.2.1 x.2.2) x.1 "f-A" 0 = .value true))) =
      [(0, 0, false), (0, 0, false), (0, 0, true)] ∧
    verdicts (testedRun loopEnv (loopFlow .iterator .user) .activity 20) = some (.pass, [.pass]) :=
  ⟨(fun _ _ h => nomatch h), watching_primitive _, by decide +kernel, by decide +kernel, by decide +kernel⟩

/-- The same flow, stopped before: the verdict is Fail. -/
example : verdicts (testedRun loopEnv (loopFlow .iterator .user) .activity 2) = some (.pass, [.fail]) := by decide +kernel

/-- A flow of one task. -/
def testFlow (act : ActKind) (retry : Bool) : Def := { name := "f", main := ⟨[{ tk "A" with act := act, retry := retry }], []⟩ }

/-- The activity fails in the first call in a way that allows a retry, and succeeds then. -/
def onceFails : Env :=
  { plainEnv with
    act := fun e i _ => if (calls e i).length = 1 then { res := .err (.act "no" "" .null "" true) } else {}
    retryCount := fun _ _ _ => .ok 1 }

/-- C102 does not hold for attempts: the activity fails, the assertion on its error is evaluated, the retry succeeds, and the verdict is that the assertion
was not executed. -/
theorem C102_negation_retry : NoModeError onceFails ∧ AllPrimitive (watching .exception) ∧
    (testedRun onceFails (testFlow .user true) .exception 20).log.map (fun x => (x.1, x.2.1, (Eng.evalOnce onceFails x.2.2.before x.1 x.2.1).2.isOk)) =
      [(0, 0, false), (0, 0, true)] ∧
    verdicts (testedRun onceFails (testFlow .user true) .exception 20) = some (.pass, [.assertionNotExecuted]) :=
  ⟨(fun _ _ h => nomatch h), watching_primitive _, by decide +kernel, by decide +kernel⟩

/-- Without a retry: the status is Fail and the assertion on the error has been evaluated, but not one on the outputs. -/
example : verdicts (testedRun onceFails (testFlow .user false) .exception 20) = some (.fail, [.fail]) := by decide +kernel
example : verdicts (testedRun onceFails (testFlow .user false) .activity 20) = some (.fail, [.assertionNotExecuted]) := by decide +kernel

/-- The activity panics. -/
def verdictPanics : Env := { plainEnv with act := fun _ _ _ => { res := .panic "boom" } }

/-- The flow fails by the panic, and nothing is noted. -/
example : flowStatus (testedRun verdictPanics (testFlow .user false) .exception 20).eng 0 = some .failed ∧
    verdicts (testedRun verdictPanics (testFlow .user false) .exception 20) = some (.notExecuted, [.notExecuted]) := by decide +kernel

/-- The hypotheses of `C102_failure` and `C102_negation_panic` are met by the first attempts of these runs. -/
example : ∃ e ob td p, Answers onceFails 0 0 e ob td p { res := .err (.act "no" "" .null "" true) } ∧ WatchedBy 0 0 ⟨false, e⟩ "f-A" :=
  let e := Eng.init onceFails "1" "u" (testFlow .user true) []
  ⟨e, _, _, e, ⟨rfl, rfl, ⟨e, rfl, rfl⟩, rfl, rfl, (fun _ h => nomatch h), rfl⟩, ⟨_, _, rfl, rfl, rfl⟩⟩
example : ∃ e ob td p, Answers verdictPanics 0 0 e ob td p { res := .panic "boom" } :=
  let e := Eng.init verdictPanics "1" "u" (testFlow .user true) []
  ⟨e, _, _, e, ⟨rfl, rfl, ⟨e, rfl, rfl⟩, rfl, rfl, (fun _ h => nomatch h), rfl⟩⟩
example : ∃ e ob td p, Answers loopEnv 0 0 e ob td p {} ∧ WatchedBy 0 0 ⟨false, e⟩ "f-A" :=
  let e := Eng.init loopEnv "1" "u" (testFlow .user true) []
  ⟨e, _, _, e, ⟨rfl, rfl, ⟨e, rfl, rfl⟩, rfl, rfl, (fun _ h => nomatch h), rfl⟩, ⟨_, _, rfl, rfl, rfl⟩⟩

/-- Task A is mocked. -/
def verdictMocks : Env := { plainEnv with icp := fun key => if key = "f-A" then some { skipExecution := true, type := .mockActivity } else none }

/-- A mocked activity: its status is Mocked, and assertions on its outputs are judged. -/
example : verdicts (testedRun verdictMocks (testFlow .user false) .activity 20) = some (.mocked, [.fail]) := by decide +kernel
example : ∃ e ob, e.obj? 0 0 = some ob ∧ Eng.mocked verdictMocks e 0 ob = true ∧ WatchedBy 0 0 ⟨false, e⟩ "f-A" :=
  ⟨Eng.init verdictMocks "1" "u" (testFlow .user true) [], _, rfl, rfl, ⟨_, _, rfl, rfl, rfl⟩⟩

/-- Task A is skipped: nothing is called, its status stays, and its assertion is judged (the hypotheses of `C102_skipped`). -/
def verdictSkips : Env := { plainEnv with icp := fun key => if key = "A" then some { skip := true } else none }

example : verdicts (testedRun verdictSkips (testFlow .user false) .activity 20) = some (.notExecuted, [.fail]) ∧
    calls (testedRun verdictSkips (testFlow .user false) .activity 20).eng 0 = [] := by decide +kernel
example : ∃ e ob p, e.obj? 0 0 = some ob ∧ Eng.inputInterceptor verdictSkips e 0 0 ob = (p, false) ∧ WatchedBy 0 0 ⟨false, e⟩ "f-A" :=
  ⟨Eng.init verdictSkips "1" "u" (testFlow .user true) [], _, _, rfl, rfl, ⟨_, _, rfl, rfl, rfl⟩⟩

/-- Task A calls a flow whose task fails. -/
def verdictCalls : Env :=
  { plainEnv with
    act := fun _ _ _ => { res := .err (.plain "no") }
    defs := fun _ => .ok (some { name := "s", main := ⟨[tk "X"], []⟩ }) }

/-- C102 does not hold for tasks that call flows: the called flow fails, and so does the task, but its status is Pass, and its assertion on the
error is not executed. -/
theorem C102_negation_called : flowStatus (testedRun verdictCalls (testFlow (.subflow "s") false) .exception 20).eng 0 = some .failed ∧
    flowStatus (testedRun verdictCalls (testFlow (.subflow "s") false) .exception 20).eng 1 = some .failed ∧
    verdicts (testedRun verdictCalls (testFlow (.subflow "s") false) .exception 20) = some (.pass, [.notExecuted]) := by decide +kernel

/-- The hypotheses of `C102_resumed` are met in the run in which the called flow has failed. -/
example : ∃ n e' r, Evaluates verdictCalls (testedRun verdictCalls (testFlow (.subflow "s") false) .exception n).eng 0 0 ⟨false, "A"⟩ e' r ∧
    ((testedRun verdictCalls (testFlow (.subflow "s") false) .exception n).eng.obj? 0 0).map (·.status) = some .waiting :=
  ⟨2, _, _, ⟨⟨_, rfl, rfl, rfl, rfl⟩, rfl⟩, by decide +kernel⟩

/-- The hypotheses of `C102_evaluation` are met by the first step of the loop. -/
example : ∃ e' r, Evaluates loopEnv (testedRun loopEnv (loopFlow .iterator .user) .activity 0).eng 0 0 ⟨false, "A"⟩ e' r ∧
    ((testedRun loopEnv (loopFlow .iterator .user) .activity 0).eng.obj? 0 0).map (·.status) ≠ some .waiting :=
  ⟨_, _, ⟨⟨_, rfl, rfl, rfl, rfl⟩, rfl⟩, by decide⟩

end Flow
