import Verif.Props.Resolve
import Verif.Spec.Inputs
import Verif.Spec.Failure

/-
C84: the inputs an activity is called with.
-/

namespace Flow

open Spec Res

variable {env : Env} {i o : Nat} {t : TaskRef} {td : TaskDef}

/-! ### The execution does not depend on what activities do with other inputs -/

section
variable {act : Eng → Nat → Nat → ActOut}

theorem overrides_get (c : String → Val → Val) (l : List (String × Val)) (hn : (AMap.keys l).Nodup) (m : AMap String Val) (k : String) :
    (l.foldl (fun m p => AMap.set m p.1 (c p.1 p.2)) m).get? k = ((AMap.get? l k).map (c k)).or (m.get? k) := by
  induction l generalizing m with
  | nil => rfl
  | cons p l ih =>
    obtain ⟨a, b⟩ := p
    obtain ⟨h1, h2⟩ := List.nodup_cons.1 (show (a :: AMap.keys l).Nodup from hn)
    rw [List.foldl_cons, ih h2]
    by_cases ha : a = k
    · subst ha
      have : AMap.get? l a = none := by
        cases hg : AMap.get? l a with
        | none => rfl
        | some v => exact absurd (get_mem hg) h1
      rw [this, AMap.get?_set_self]
      simp [AMap.get?]
    · rw [AMap.get?_set_ne _ _ ha]
      simp [AMap.get?, ha]

theorem same_enterStart (e : Eng) (i : Nat) (xs : List TaskEntry) :
    Eng.enterStart { env with act := act } e i xs = Eng.enterStart env e i xs := by
  induction xs generalizing e with
  | nil => rfl
  | cons x xs ih =>
    unfold Eng.enterStart
    simp only [ih]

theorem same_startInstance (e : Eng) (i : Nat) (start : AMap String Val) :
    Eng.startInstance { env with act := act } e i start = Eng.startInstance env e i start := by
  unfold Eng.startInstance
  simp only [same_enterStart]
  rfl

theorem same_startSubFlow (e : Eng) (i o : Nat) (uri : String) (ins : AMap String Val) :
    Eng.startSubFlow { env with act := act } e i o uri ins = Eng.startSubFlow env e i o uri ins := by
  unfold Eng.startSubFlow
  simp only [same_startInstance]

theorem same_callActivity {e : Eng} {ob : Obj} (h : act (e.modI i (fun I => { I with trace := .evalAct o ob.task :: I.trace })) i o =
      env.act (e.modI i (fun I => { I with trace := .evalAct o ob.task :: I.trace })) i o) :
    e.callActivity { env with act := act } i o ob td = e.callActivity env i o ob td := by
  unfold Eng.callActivity
  cases td.act with
  | subflow uri => dsimp only; rw [same_startSubFlow]
  | user => dsimp only; rw [h]
  | async => dsimp only; rw [h]

theorem same_evalWith {p : Eng × Bool} {ob : Obj}
    (h : p.2 = true → act (p.1.modI i (fun I => { I with trace := .evalAct o ob.task :: I.trace })) i o =
      env.act (p.1.modI i (fun I => { I with trace := .evalAct o ob.task :: I.trace })) i o) :
    Eng.evalWith { env with act := act } p i o ob td = Eng.evalWith env p i o ob td := by
  unfold Eng.evalWith
  cases hp : p.2 with
  | false => rfl
  | true =>
    rw [same_callActivity (h hp)]
    rfl

/-- The state in which an activity is called after its inputs were computed. -/
theorem fed_state {e e1 : Eng} {ob : Obj} (ho : e.obj? i o = some ob) {name : String}
    (h1 : e.applyInputMapper env i o name = (e1, none)) :
    ∃ base ins, ((Eng.inputInterceptor env e1 i o ob).1.modI i (fun I => { I with trace := .evalAct o ob.task :: I.trace })).obj? i o =
        some { ob with inputs := ins } ∧
      (∀ k, attrAt ((Eng.inputInterceptor env e1 i o ob).1.modI i (fun I => { I with trace := .evalAct o ob.task :: I.trace })) i k = attrAt e i k) ∧
      MappedInputs env e i o base ∧ Overridden env ob.task base ins := by
  obtain ⟨I, hI, hob⟩ := Eng.obj?_some ho
  have hmod : ∀ (f : Obj → Obj), (e.modI i (fun I => I.modO o f)).obj? i o = some (f ob) := fun f => by
    rw [Eng.obj?_eq (Eng.modI_self hI _)]
    simp [Inst.modO, hob]
  obtain ⟨base, hs, he1, ha1⟩ : ∃ base, MappedInputs env e i o base ∧ e1.obj? i o = some { ob with inputs := base } ∧
      ∀ k, attrAt e1 i k = attrAt e i k := by
    unfold Eng.applyInputMapper at h1
    split at h1
    · rename_i hm
      cases h1
      exact ⟨ob.inputs, .inr ⟨hm, by rw [ho]; rfl⟩, ho, fun _ => rfl⟩
    · cases h1
    · rename_i m hm
      cases h1
      refine ⟨m, .inl hm, hmod _, fun k => ?_⟩
      unfold Spec.attrAt
      rw [Eng.modI_self hI, hI]
      rfl
  obtain ⟨I1, hI1, hob1⟩ := Eng.obj?_some he1
  obtain ⟨e2, ins, he2, ho2, ha2, hv⟩ : ∃ e2 ins, (Eng.inputInterceptor env e1 i o ob).1 = e2 ∧
      e2.obj? i o = some { ob with inputs := ins } ∧ (∀ k, attrAt e2 i k = attrAt e i k) ∧ Overridden env ob.task base ins := by
    unfold Eng.inputInterceptor Eng.icpIn
    cases hc : env.icp ob.task.id with
    | none => exact ⟨e1, base, rfl, he1, ha1, fun _ => rfl, fun tc h => by rw [hc] at h; cases h⟩
    | some tc =>
      refine ⟨_, tc.inputs.foldl (fun m p => m.set p.1 (env.coerceIn ob.task p.1 p.2)) base, rfl, ?_, fun k => ?_, ?_⟩
      · rw [Eng.obj?_eq (Eng.modI_self hI1 _)]
        simp [Inst.modO, hob1]
      · rw [← ha1]
        unfold Spec.attrAt
        rw [Eng.modI_self hI1, hI1]
        rfl
      · refine ⟨fun h => by (rw [hc] at h; cases h), fun tc' h hn k => ?_⟩
        rw [hc] at h
        cases h
        exact overrides_get (env.coerceIn ob.task) tc.inputs hn base k
  rw [he2]
  obtain ⟨I2, hI2, hob2⟩ := Eng.obj?_some ho2
  refine ⟨base, ins, ?_, fun k => ?_, hs, hv⟩
  · rw [Eng.obj?_eq (Eng.modI_self hI2 _)]; exact hob2
  · rw [← ha2]
    unfold Spec.attrAt
    rw [Eng.modI_self hI2, hI2]
    rfl

variable (hact : ∀ c i o, Fed env c i o → act c i o = env.act c i o)
include hact

theorem same_evalOnce (e : Eng) (i o : Nat) : e.evalOnce { env with act := act } i o = e.evalOnce env i o := by
  unfold Eng.evalOnce
  cases ho : e.obj? i o with
  | none => rfl
  | some ob =>
  dsimp only
  cases htd : e.taskDef? i ob.task with
  | none => rfl
  | some td =>
  dsimp only
  have hfed : ∀ e1, e.applyInputMapper env i o td.name = (e1, none) → (Eng.inputInterceptor env e1 i o ob).2 = true →
      Fed env ((Eng.inputInterceptor env e1 i o ob).1.modI i (fun I => { I with trace := .evalAct o ob.task :: I.trace })) i o := by
    intro e1 h1 h2
    obtain ⟨base, ins, g1, g2, g3, g4⟩ := fed_state ho h1
    exact ⟨e, _, ob, base, ho, g1, fun k => (g2 k).symm, rfl, g3, g4⟩
  have hmap : e.applyInputMapper { env with act := act } i o td.name = e.applyInputMapper env i o td.name := rfl
  rw [hmap]
  split
  · rfl
  · rename_i e1 heq
    show Eng.evalWith { env with act := act } (Eng.inputInterceptor env e1 i o ob) i o ob td = _
    exact same_evalWith fun hp => hact _ _ _ (hfed e1 heq hp)

theorem same_retryFrom (n : Nat) (e : Eng) (i o : Nat) : Eng.retryFrom { env with act := act } n e i o = Eng.retryFrom env n e i o := by
  induction n generalizing e with
  | zero => unfold Eng.retryFrom; rw [same_evalOnce hact]
  | succ n ih => unfold Eng.retryFrom; rw [same_evalOnce hact]; simp only [ih]

theorem same_evalActivity (e : Eng) (i o : Nat) : e.evalActivity { env with act := act } i o = e.evalActivity env i o := by
  unfold Eng.evalActivity
  rw [same_evalOnce hact]
  simp only [same_retryFrom hact]
  rfl

theorem same_evalKind (e : Eng) (i o : Nat) (td : TaskDef) : e.evalKind { env with act := act } i o td = e.evalKind env i o td := by
  unfold Eng.evalKind Eng.evalBasic Eng.evalIter Eng.evalDoWhile
  simp only [same_evalActivity hact]
  rfl

theorem same_postKind (e : Eng) (i o : Nat) (td : TaskDef) : e.postKind { env with act := act } i o td = e.postKind env i o td := by
  unfold Eng.postKind Eng.postBasic
  simp only [same_retryFrom hact]
  rfl

theorem same_step (e : Eng) : e.step { env with act := act } = e.step env := by
  have h : ∀ (e : Eng) i o, e.exec { env with act := act } i o = e.exec env i o := fun e i o => by
    unfold Eng.exec
    simp only [same_evalKind hact, same_postKind hact]
    rfl
  unfold Eng.step Eng.doStep
  simp only [h]
  rfl

/-- C84: activities are called with the inputs that their mapping yields from the current values, and only with these. What an
activity would do with other inputs, or with inputs computed from other values, makes no difference to any execution. -/
theorem C84_only (id uri : String) (d : Def) (ins : AMap String Val) (n : Nat) :
    Eng.run { env with act := act } (Eng.init { env with act := act } id uri d ins) n = Eng.run env (Eng.init env id uri d ins) n := by
  have h0 : Eng.init { env with act := act } id uri d ins = Eng.init env id uri d ins := same_startInstance _ _ _
  rw [h0]
  generalize Eng.init env id uri d ins = e
  induction n with
  | zero => rfl
  | succ n ih => show Eng.step _ _ = Eng.step _ _; rw [ih, same_step hact]

end

/-! ### Data flow between tasks -/

/-- What the result of the activity means for one attempt. -/
def AttemptOf : ActRes → Except Err Bool → Prop
  | .done, r => r = .ok true ∨ ∃ err, r = .error err
  | .wait, r => r = .ok false
  | .err _, r => ∃ err, r = .error err
  | .panic _, r => ∃ err, r = .error err

theorem evalOnce_call {e : Eng} {ob : Obj} (ho : e.obj? i o = some ob) (htd : e.taskDef? i ob.task = some td) (hact : td.act.sub? = none) :
    calls (e.evalOnce env i o).1 i = calls e i ∨
    ∃ c base ins, calls c i = .evalAct o ob.task :: calls e i ∧ calls (e.evalOnce env i o).1 i = calls c i ∧
      c.obj? i o = some { ob with inputs := ins } ∧ (∀ k, attrAt c i k = attrAt e i k) ∧
      MappedInputs env e i o base ∧ Overridden env ob.task base ins ∧ AttemptOf (env.act c i o).res (e.evalOnce env i o).2 := by
  unfold Eng.evalOnce
  rw [ho]
  dsimp only
  rw [htd]
  dsimp only
  have hl1 := Eng.LocalE.applyInputMapper (env := env) (k := true) (i := i) (o := o) e td.name
  split
  · rename_i e1 err heq
    rw [heq] at hl1
    exact (.inl (hl1.calls i))
  · rename_i e1 heq
    rw [heq] at hl1
    have hl2 := hl1.trans (Eng.LocalE.inputInterceptor (env := env) (k := true) (i := i) (o := o) e1 ob)
    obtain ⟨base, ins, g1, g2, g3, g4⟩ := fed_state ho heq
    generalize Eng.inputInterceptor env e1 i o ob = p at g1 g2 hl2
    obtain ⟨p, b⟩ := p
    dsimp only at g1 g2 hl2
    unfold Eng.evalWith
    dsimp only
    split
    · exact (.inl ((hl2.trans (Eng.LocalE.afterDone ..)).calls i))
    · split
      · exact (.inl (hl2.calls i))
      · split
        · exact (.inl ((hl2.trans (Eng.LocalE.afterDone ..)).calls i))
        · right
          obtain ⟨J, hJ⟩ : ∃ J, p.insts[i]? = some J := by
            cases h : p.insts[i]? with
            | some J => exact ⟨J, rfl⟩
            | none =>
              obtain ⟨J, hJ, _⟩ := Eng.obj?_some g1
              rw [Eng.modI_getElem?, h] at hJ
              simp at hJ
          have hc : calls (p.modI i (fun I => { I with trace := .evalAct o ob.task :: I.trace })) i = .evalAct o ob.task :: calls e i := by
            rw [← hl2.calls i, Eng.calls_eq (Eng.modI_self hJ _), Eng.calls_eq hJ]
            rfl
          obtain ⟨J', hJ', ht', _⟩ := Eng.callActivity_calls (env := env) (o := o) (ob := ob) td hJ
          have hc2 : calls (p.callActivity env i o ob td).1 i = .evalAct o ob.task :: calls e i := by
            rw [← hl2.calls i, Eng.calls_eq hJ', ht', Eng.calls_eq hJ]
            rfl
          have hres : AttemptOf (env.act (p.modI i (fun I => { I with trace := .evalAct o ob.task :: I.trace })) i o).res
              (p.callActivity env i o ob td).2.1 := by
            unfold Eng.callActivity
            split
            · rename_i uri hu; rw [hu] at hact; cases hact
            · dsimp only
              cases (env.act (p.modI i (fun I => { I with trace := .evalAct o ob.task :: I.trace })) i o).res with
              | done => exact .inl rfl
              | wait => rfl
              | err err => exact ⟨_, rfl⟩
              | panic m => exact ⟨_, rfl⟩
          refine ⟨_, base, ins, hc, ?_, g1, g2, g3, g4, ?_⟩
          · rw [hc, ← hc2]
            generalize p.callActivity env i o ob td = q
            obtain ⟨q1, q2, q3⟩ := q
            split
            · rename_i h; cases h
              dsimp only
              split
              · rfl
              · exact (Eng.LocalE.evalErrorData (k := true) (o := o) _ _ _).calls i
            · rename_i h; cases h
              exact (Eng.LocalE.afterDone (k := true) _ _ _).calls i
            · rename_i h; cases h; rfl
          · revert hres
            generalize p.callActivity env i o ob td = q
            obtain ⟨q1, q2, q3⟩ := q
            generalize (env.act _ i o).res = ar
            intro hres
            dsimp only at hres
            split
            · rename_i h; cases h; exact hres
            · rename_i h; cases h
              have := Eng.afterDone_result (env := env) (i := i) (o := o) q1 ob td
              cases ar with
              | done => exact this
              | wait => cases hres
              | err _ => obtain ⟨_, h⟩ := hres; cases h
              | panic _ => obtain ⟨_, h⟩ := hres; cases h
            · rename_i h; cases h; exact hres

/-- The state in which the activity of a task without retry is evaluated: the iteration variables may have changed. -/
theorem evalKind_once {e : Eng} {ob : Obj} (ho : e.obj? i o = some ob) (htd : e.taskDef? i ob.task = some td) (hr : td.retry = false) :
    calls (e.evalKind env i o td).1 i = calls e i ∨
    ∃ s ob', s.obj? i o = some ob' ∧ ob'.task = ob.task ∧ s.taskDef? i ob.task = some td ∧ (∀ k, attrAt s i k = attrAt e i k) ∧
      calls s i = calls e i ∧ calls (e.evalKind env i o td).1 i = calls (s.evalOnce env i o).1 i ∧
      (∀ err, (s.evalOnce env i o).2 = .error err → (e.evalKind env i o td).2 = .err err) ∧
      ((s.evalOnce env i o).2 = .ok false → (e.evalKind env i o td).2 = .res .wait) ∧
      ((s.evalOnce env i o).2 = .ok true → (e.evalKind env i o td).2 ≠ .res .wait) := by
  obtain ⟨I, hI, hob⟩ := Eng.obj?_some ho
  have hst : ∀ (a : Eng) st, calls (a.setStatus i o st) i = calls a i := fun a st => Eng.calls_setStatus a
  have hmod : ∀ (f : Obj → Obj), (∀ x, (f x).task = x.task) → ∃ ob', (e.modI i (fun I => I.modO o f)).obj? i o = some ob' ∧ ob'.task = ob.task ∧
      (e.modI i (fun I => I.modO o f)).taskDef? i ob.task = some td ∧ (∀ k, attrAt (e.modI i (fun I => I.modO o f)) i k = attrAt e i k) ∧
      calls (e.modI i (fun I => I.modO o f)) i = calls e i := fun f hf => by
    refine ⟨f ob, ?_, hf ob, ?_, fun k => ?_, ?_⟩
    · rw [Eng.obj?_eq (Eng.modI_self hI _)]
      simp [Inst.modO, hob]
    · unfold Eng.taskDef? at htd ⊢
      rw [hI] at htd
      rw [Eng.modI_self hI]
      exact htd
    · unfold Spec.attrAt
      rw [Eng.modI_self hI, hI]
      rfl
    · rw [Eng.calls_eq (Eng.modI_self hI _), Eng.calls_eq hI]
      rfl
  unfold Eng.evalKind
  cases td.kind with
  | basic =>
    right
    refine ⟨e, ob, ho, rfl, htd, fun _ => rfl, rfl, ?_⟩
    dsimp only
    unfold Eng.evalBasic
    rw [Eng.evalActivity_noRetry ho htd hr]
    generalize e.evalOnce env i o = q
    obtain ⟨q1, q2⟩ := q
    cases q2 with
    | error err => exact ⟨rfl, fun _ h => by cases h; rfl, (fun h => nomatch h), (fun h => nomatch h)⟩
    | ok b => cases b with
      | true => exact ⟨rfl, fun _ h => (nomatch h), (fun h => nomatch h), fun _ h => nomatch h⟩
      | false => exact ⟨rfl, fun _ h => (nomatch h), fun _ => rfl, (fun h => nomatch h)⟩
  | iterator =>
    dsimp only
    unfold Eng.evalIter
    split
    · exact .inl rfl
    · exact .inl rfl
    · rename_i it _
      dsimp only
      split
      · exact .inl (hmod (fun x => { x with iter := some it.next.1, iteration := some (x.iteration.getD (.null, .null, 0)) }) (fun _ => rfl)).choose_spec.2.2.2.2
      · split
        · exact .inl rfl
        · rename_i v _
          right
          obtain ⟨ob', h1, h2, h3, h4, h5⟩ := hmod (fun x => { x with iter := some it.next.1, iteration := some (it.next.1.key, v, it.next.1.current) }) (fun _ => rfl)
          refine ⟨_, ob', h1, h2, h3, h4, h5, ?_⟩
          rw [Eng.evalActivity_noRetry h1 (h2 ▸ h3) hr]
          generalize Eng.evalOnce env _ i o = q
          obtain ⟨q1, q2⟩ := q
          cases q2 with
          | error err => exact ⟨hst _ _, fun _ h => by cases h; rfl, (fun h => nomatch h), (fun h => nomatch h)⟩
          | ok b => cases b with
            | true => exact ⟨rfl, fun _ h => (nomatch h), (fun h => nomatch h), fun _ h => nomatch h⟩
            | false => exact ⟨hst _ _, fun _ h => (nomatch h), fun _ => rfl, (fun h => nomatch h)⟩
  | doWhile =>
    dsimp only
    unfold Eng.evalDoWhile
    right
    obtain ⟨ob', h1, h2, h3, h4, h5⟩ := hmod (fun x => { x with dwIndex := some (x.dwIndex.getD 0) }) (fun _ => rfl)
    refine ⟨_, ob', h1, h2, h3, h4, h5, ?_⟩
    change _ = calls (Eng.evalOnce env (e.dwInit i o) i o).1 i ∧ _
    rw [Eng.evalActivity_noRetry (e := e.dwInit i o) h1 (h2 ▸ h3) hr]
    change _ ∧ (∀ err, (Eng.evalOnce env (e.dwInit i o) i o).2 = _ → _) ∧ ((Eng.evalOnce env (e.dwInit i o) i o).2 = _ → _) ∧
      ((Eng.evalOnce env (e.dwInit i o) i o).2 = _ → _)
    generalize Eng.evalOnce env (e.dwInit i o) i o = q
    obtain ⟨q1, q2⟩ := q
    cases q2 with
    | error err => exact ⟨hst _ _, fun _ h => by cases h; rfl, (fun h => nomatch h), (fun h => nomatch h)⟩
    | ok b => cases b with
      | true =>
        refine ⟨?_, fun _ h => (nomatch h), (fun h => nomatch h), fun _ h => ?_⟩
        · exact (Eng.LocalE.dwUpdate (i := i) (o := o) q1).calls i
        · unfold Eng.dwCheck at h
          dsimp only at h
          split at h
          · split at h <;> cases h
          · cases h
      | false => exact ⟨hst _ _, fun _ h => (nomatch h), fun _ => rfl, (fun h => nomatch h)⟩

/-- C84: when a task without retry is evaluated, its activity is called at most once. It is called with the inputs that its mapping
yields from the current values, that is, the values at the beginning of the evaluation, and its result decides what becomes of the
task. -/
theorem C84_call {e e' : Eng} {r : Eng.EvalOut} (h : Starts env e i o t e' r) (htd : e.taskDef? i t = some td)
    (hr : td.retry = false) (hact : td.act.sub? = none) :
    calls e' i = calls e i ∨
    ∃ c, calls c i = .evalAct o t :: calls e i ∧ calls e' i = calls c i ∧ (∀ k, attrAt c i k = attrAt e i k) ∧
      Holds c i o t ∧ Fed env c i o ∧ Answer (env.act c i o).res r := by
  obtain ⟨ob, _, ho, ht, _⟩ := Eng.evaluates_obj h.1
  obtain ⟨w, _, _, _, _, h5⟩ := Eng.evaluates_eval h.1 ho (ht ▸ htd)
  have h6 := h5 (h.2 ob ho)
  have hw : (afterPop env e w).obj? i o = some ob := ho
  have hwd : (afterPop env e w).taskDef? i ob.task = some td := ht ▸ htd
  have he' : e' = ((afterPop env e w).evalKind env i o td).1 := by rw [← h6]
  have hr' : r = ((afterPop env e w).evalKind env i o td).2 := by rw [← h6]
  rw [he', hr']
  rcases evalKind_once (env := env) hw hwd hr with h7 | ⟨s, ob', g1, g2, g3, g4, g5, g6, g7, g8, g9⟩
  · exact .inl h7
  · rcases evalOnce_call (env := env) g1 (g2 ▸ g3) hact with h8 | ⟨c, base, ins, k1, k2, k3, k4, k5, k6, k7⟩
    · exact .inl (g6.trans (h8.trans g5))
    · right
      refine ⟨c, ?_, g6.trans k2, fun k => (k4 k).trans (g4 k), ⟨_, k3, g2.trans ht⟩, ⟨s, _, ob', base, g1, k3, fun k => (k4 k).symm, rfl, k5, k6⟩, ?_⟩
      · rw [k1, g5, g2, ht]; rfl
      · cases ha : (env.act c i o).res with
        | done =>
          rw [ha] at k7
          rcases k7 with k7 | ⟨err, k7⟩
          · exact g9 k7
          · rw [g7 err k7]; exact (fun h => nomatch h)
        | wait => rw [ha] at k7; exact g8 k7
        | err x => rw [ha] at k7; obtain ⟨err, k7⟩ := k7; rw [g7 err k7]; trivial
        | panic x => rw [ha] at k7; obtain ⟨err, k7⟩ := k7; rw [g7 err k7]; trivial

/-- C84: a value produced by one task reaches the task that refers to it. Task `t` finishes with the value `v` for its output `n`;
later, before a task of this name is executed again, a task without retry is evaluated whose input `x` is mapped to
`$activity[t].n`. If its activity is called, then with `v` for `x`. -/
theorem C84_data_flow {path : Val → String → Option Val} {declared : Declared} (hm : DefaultMapping env declared) {e e' : Eng}
    (hre : Reachable env e) (hp : PlainTasks e i) {r : Eng.EvalOut} (hev : Evaluates env e i o t e' r)
    (htd : e.taskDef? i t = some td) (hn : ¬Accumulating td) (hf : FinishesIteration env td e i o r)
    {names : List String} (hd : declared t = some names) (hnd : names.Nodup) {n : String} (hmem : n ∈ names) (hne : n ≠ "")
    {v : Val} (hv : AMap.get? (((e'.obj? i o).bind (·.outputs)).getD []) n = some v)
    {l : Nat} (hl : ∀ m, 0 < m → m ≤ l → ¬ExecutesTask env (Eng.run env e m) i t.id)
    {p : Nat} {u : TaskRef} {ud : TaskDef} {f : Eng} {q : Eng.EvalOut} (h : Starts env (Eng.run env e (l + 1)) i p u f q)
    (hud : (Eng.run env e (l + 1)).taskDef? i u = some ud) (hr : ud.retry = false) (hact : ud.act.sub? = none) (hicp : env.icp u.id = none)
    {x : String} (hx : MapsTo env path i p x (.activity t.id n)) :
    calls f i = calls (Eng.run env e (l + 1)) i ∨
    ∃ c, calls c i = .evalAct p u :: calls (Eng.run env e (l + 1)) i ∧ calls f i = calls c i ∧
      (c.obj? i p).bind (·.inputs.get? x) = some v ∧ Answer (env.act c i p).res q := by
  rcases C84_call h hud hr hact with h1 | ⟨c, k1, k2, k3, ⟨obc, hobc, htc⟩, ⟨s, ob, ob', base, g1, g2, g3, g4, g5, g6⟩, k5⟩
  · exact .inl h1
  · right
    refine ⟨c, k1, k2, ?_, k5⟩
    have hbase : base.get? x = some v := by
      obtain ⟨y, hy1, hy2⟩ := hx s
      rcases g5 with g5 | ⟨g5, _⟩
      · rw [g5] at hy1
        cases hy1
        rw [hy2 base rfl]
        have := C83_activity (path := path) hm hre hp hev htd hn hf hd hnd hmem hne hv hl p
        obtain ⟨k, hk⟩ := key_head t.id n
        unfold Res.resolve at this ⊢
        dsimp only at this ⊢
        rw [if_pos hne, scope_attr (working_none hk (by decide))] at this ⊢
        rw [g3, k3, this]
      · rw [g5] at hy1; cases hy1
    rw [hobc] at g2
    cases g2
    rw [hobc, Option.bind_some, g6.1 (by rw [htc]; exact hicp), hbase]

/-! ### Examples -/

/-- A produces n = 7, B maps its input x to `$activity[A].n`. -/
def feedsEnv : Env :=
  { plainEnv with
    act := fun e i o =>
      if (e.obj? i o).map (·.task.id) = some "A" then { outputs := some (some [("n", .int 7)]) } else {}
    outMap := fun e i o => (e.obj? i o).map fun ob => (Out.defaultApply ob.task.id (some ["n"]) (ob.outputs.getD []), none)
    inMap := fun e i o =>
      if o = 1 then
        match resolve (fun _ _ => none) (taskScope e i o) (.activity "A" "n") with
        | some v => some (.ok [("x", v)])
        | none => some (.error "failed to resolve activity attr")
      else none }

def feeds : Def := { name := "f", main := ⟨[tk "A", tk "B"], deps 1 [("A", "B")]⟩ }

def feedsRun (n : Nat) : Eng := Eng.run feedsEnv (Eng.init feedsEnv "1" "u" feeds []) n

theorem feeds_maps : MapsTo feedsEnv (fun _ _ => none) 0 1 "x" (.activity "A" "n") := fun s => by
  unfold feedsEnv
  dsimp only
  rw [if_pos rfl]
  split
  · rename_i v hv; exact ⟨_, rfl, fun m hm => by cases hm; rw [hv]; rfl⟩
  · exact ⟨_, rfl, fun m hm => nomatch hm⟩

theorem feeds_default : DefaultMapping feedsEnv (fun _ => some ["n"]) where
  out := fun c i o ob h => by unfold feedsEnv; dsimp only; rw [h]; rfl
  act := fun c i o k _ => by unfold feedsEnv; dsimp only; split <;> rfl
  post := fun _ _ _ _ _ => rfl

theorem feeds_plain : PlainTasks (feedsRun 0) 0 := fun t td h => by
  have h1 : (feeds.task? t) = some td := h
  obtain ⟨eh, id⟩ := t
  unfold Def.task? at h1
  cases eh with
  | true => cases h1
  | false =>
    have hm := List.mem_of_find?_eq_some h1
    have hid : td.id = id := by simpa using List.find?_some h1
    dsimp only
    rw [← hid]
    rcases List.mem_cons.1 hm with rfl | hm
    · decide
    · cases List.mem_singleton.1 hm
      decide

-- all hypotheses hold: A is executed by the first step, B by the fifth, and B is called with x = 7
example : ∃ c f, calls c 0 = [.evalAct 1 ⟨false, "B"⟩, .evalAct 0 ⟨false, "A"⟩] ∧
    (c.obj? 0 1).bind (fun ob => AMap.get? ob.inputs "x") = some (.int 7) ∧ Starts feedsEnv (feedsRun 4) 0 1 ⟨false, "B"⟩ f (.res .done) ∧
    calls f 0 = calls c 0 := by
  have hs : Starts feedsEnv (feedsRun 4) 0 1 ⟨false, "B"⟩ _ (.res .done) :=
    ⟨⟨⟨⟨2, 0, 1⟩, rfl, rfl, rfl, rfl⟩, rfl⟩, fun ob h => by cases h; decide⟩
  rcases C84_data_flow (path := fun _ _ => none) (l := 3) (e := feedsRun 0) (td := tk "A") feeds_default ⟨_, _, _, _, 0, rfl⟩ feeds_plain
    (t := ⟨false, "A"⟩) ⟨⟨⟨1, 0, 0⟩, rfl, rfl, rfl, rfl⟩, rfl⟩ rfl (fun ⟨_, h, _⟩ => (nomatch h))
    ⟨_, rfl, (fun h => nomatch h), fun _ => .inr ⟨rfl, fun h => nomatch h⟩⟩ rfl (by decide) (n := "n") (by decide) (by decide) (v := .int 7) rfl
    (by
      rintro m h0 hm ⟨o, t, e', r, h1, h2⟩
      have h3 := takes_of h1
      rw [h2] at h3
      have h4 : ∀ m ≤ 3, 0 < m → takes feedsEnv (feedsRun m) ≠ some "A" := by decide +kernel
      exact h4 m hm h0 h3) hs (ud := tk "B") rfl rfl rfl rfl feeds_maps with h | ⟨c, h1, h2, h3, _⟩
  · exact absurd (congrArg List.length h) (by decide)
  · exact ⟨c, _, h1, h3, hs, h2⟩

-- an activity that would misbehave without its input x makes no difference
example : Eng.run { feedsEnv with act := fun e i o =>
      if (((e.obj? i o).map (·.task.id)) = some "B" ∧ ((e.obj? i o).bind (fun ob => AMap.get? ob.inputs "x")).isNone ∧ o = 1)
      then { res := .panic "no x" } else feedsEnv.act e i o }
    (Eng.init feedsEnv "1" "u" feeds []) 20 = feedsRun 20 := by
  refine C84_only (env := feedsEnv) (fun c i o hfed => ?_) "1" "u" feeds [] 20
  rw [if_neg]
  rintro ⟨_, h2, rfl⟩
  obtain ⟨s, ob, ob', base, g1, g2, g3, g4, g5, g6⟩ := hfed
  rw [g2, Option.bind_some, g6.1 rfl] at h2
  rcases g5 with g5 | ⟨g5, _⟩
  · unfold feedsEnv at g5
    dsimp only at g5
    rw [if_pos rfl] at g5
    split at g5
    · cases g5; cases h2
    · cases g5
  · unfold feedsEnv at g5
    dsimp only at g5
    rw [if_pos rfl] at g5
    split at g5 <;> cases g5

end Flow
