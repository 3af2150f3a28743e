import Verif.Proofs.SpanEng

/-
Spans: the invariant of a run with tracing.
-/

namespace Flow
open Spec

namespace Eng

open SpanSt

variable {env : Env} {i o : Nat}

/-- Which task instances other than `o` of instance `i` wait, before and after. -/
structure Rests (i o : Nat) (e e' : Eng) : Prop where
  insts : ∀ (j : Nat) (I : Inst), e.insts[j]? = some I → ∃ I', e'.insts[j]? = some I' ∧ ∃ new, I'.trace = new ++ I.trace ∧
    ∀ p, ¬ (j = i ∧ p = o) → (I.stOf p = some .waiting → I'.stOf p = some .waiting ∨ ∃ t, .taskStatus p t .entered ∈ new) ∧
      (I'.stOf p = some .waiting → I.stOf p = some .waiting)
  fresh : ∀ (j : Nat) (I' : Inst), e'.insts[j]? = some I' → e.insts[j]? = none → ∀ p, ¬ (j = i ∧ p = o) → I'.stOf p ≠ some .waiting

namespace Rests

theorem of_waits {e e' : Eng} {b : Bool} (h : WaitsE i o b e e') : Rests i o e e' := by
  refine ⟨fun j I hI => ?_, fun j I' h1 h2 p _ => h.fresh j I' h1 h2 p⟩
  obtain ⟨I', hI', w⟩ := h.insts j I hI
  obtain ⟨new, h1, h2⟩ := w.ext
  exact ⟨I', hI', new, h1, fun p hp => ⟨h2 p hp, w.nonew p⟩⟩

theorem trans {e f g : Eng} (h : Rests i o e f) (k : Rests i o f g) : Rests i o e g := by
  refine ⟨fun j I hI => ?_, fun j I' h1 h2 p hp => ?_⟩
  · obtain ⟨J, hJ, n1, e1, k1⟩ := h.insts j I hI
    obtain ⟨K, hK, n2, e2, k2⟩ := k.insts j J hJ
    refine ⟨K, hK, n2 ++ n1, by rw [e2, e1, List.append_assoc], fun p hp => ⟨fun hw => ?_, fun hw => (k1 p hp).2 ((k2 p hp).2 hw)⟩⟩
    rcases (k1 p hp).1 hw with hx | ⟨t, ht⟩
    · rcases (k2 p hp).1 hx with hy | ⟨t, ht⟩
      · exact Or.inl hy
      · exact Or.inr ⟨t, List.mem_append_left _ ht⟩
    · exact Or.inr ⟨t, List.mem_append_right _ ht⟩
  · cases hf : f.insts[j]? with
    | none => exact k.fresh j I' h1 hf p hp
    | some J =>
      obtain ⟨K, hK, _, _, k2⟩ := k.insts j J hf
      rw [h1] at hK; cases hK
      exact fun hw => h.fresh j J hf h2 p hp ((k2 p hp).2 hw)

theorem setStatus (e : Eng) (s : TaskStatus) : Rests i o e (e.setStatus i o s) := by
  unfold Eng.setStatus
  refine ⟨fun j I hI => ?_, fun j I' h1 h2 => ?_⟩
  · rw [modI_getElem?, hI]
    split
    · rename_i hk
      obtain ⟨new, hn⟩ := Waits.trace_setTaskStatus I o s
      refine ⟨_, rfl, new, hn, fun p hp => ?_⟩
      have : (I.setTaskStatus o s).stOf p = I.stOf p := by
        rw [Waits.stOf_setTaskStatus, if_neg (fun hx => hp ⟨hk.symm, hx.symm⟩)]
      rw [this]
      exact ⟨Or.inl, fun hx => hx⟩
    · exact ⟨I, rfl, [], rfl, fun p _ => ⟨Or.inl, fun hx => hx⟩⟩
  · rw [modI_getElem?, h2] at h1
    split at h1 <;> cases h1

end Rests

theorem stat_setStatus {e : Eng} {ob : Obj} (ho : e.obj? i o = some ob) (s : TaskStatus) :
    ∃ ob', (e.setStatus i o s).obj? i o = some ob' ∧ ob'.status = s := by
  obtain ⟨I, hI, hob⟩ := obj?_some ho
  unfold Eng.setStatus
  rw [obj?_eq (modI_self hI _)]
  have := Waits.stOf_setTaskStatus I o s o
  unfold Inst.stOf at this
  rw [if_pos rfl, hob] at this
  cases hx : (I.setTaskStatus o s).objs[o]? with
  | none => rw [hx] at this; cases this
  | some ob' => rw [hx] at this; exact ⟨ob', rfl, by simpa using this⟩

/-- The execution of a task instance: whether it waits afterwards, and what happens to the others. -/
theorem exec_rests {e : Eng} {ob : Obj} (ho : e.obj? i o = some ob) {e' : Eng} {r : EvalOut} (h : outcome env e i o = some (e', r)) :
    Rests i o e (exec env e i o) ∧ (((exec env e i o).obj? i o).map (·.status) = some .waiting ↔ r = .res .wait) := by
  obtain ⟨td, htd, hex⟩ := exec_outcome ho h
  obtain ⟨e1, hev, heff⟩ := outcome_evals h
  have hr1 : Rests i o e e' := by
    refine (Rests.of_waits (.evals hev)).trans ?_
    rcases heff with rfl | ⟨st, rfl⟩
    · exact .of_waits (.refl _)
    · exact .setStatus _ _
  obtain ⟨ob1, ho1, ht1, hs1⟩ := hev.obj_task ho
  have ho' : ∃ ob', e'.obj? i o = some ob' := by
    rcases heff with rfl | ⟨st, rfl⟩
    · exact ⟨_, ho1⟩
    · obtain ⟨x, hx, _⟩ := stat_setStatus ho1 st
      exact ⟨x, hx⟩
  obtain ⟨ob', ho'⟩ := ho'
  rw [hex]
  by_cases hr : r = .res .wait
  · subst hr
    obtain ⟨x, hx, hxs⟩ := stat_setStatus ho' .waiting
    exact ⟨hr1.trans (.setStatus _ _), fun _ => rfl, fun _ => (congrArg (Option.map (·.status)) hx).trans (congrArg some hxs)⟩
  · obtain ⟨I', hI', hob'⟩ := obj?_some ho'
    obtain ⟨b, hw, hb⟩ := WaitsE.handleResult (env := env) (i := i) (o := o) e' ob.task td.name r hI' hr
    obtain ⟨I2, hI2, w⟩ := hw.insts i I' hI'
    refine ⟨hr1.trans (.of_waits hw), fun hst => ?_, fun hx => absurd hx hr⟩
    exfalso
    rw [obj?_eq hI2] at hst
    have hst' : I'.stOf o = some .waiting := w.nonew o hst
    have hob : ob'.status = .waiting := by
      unfold Inst.stOf at hst'; rw [hob'] at hst'; simpa using hst'
    have hbf : ¬ ((∃ err, r = .err err) ∨ r = .res .done) := by
      intro hx
      have hbt := hb hx
      subst hbt
      exact w.hit (by simp) o ⟨rfl, rfl⟩ hst
    unfold Spec.outcome at h
    rw [ho] at h
    dsimp only at h
    rw [htd] at h
    dsimp only at h
    have hdone : ∀ (f : Eng), (∃ x, f.obj? i o = some x) → e' = f.setStatus i o .done → False := by
      rintro f ⟨x, hx⟩ rfl
      obtain ⟨y, hy, hys⟩ := stat_setStatus hx .done
      rw [ho'] at hy; cases hy
      rw [hys] at hob; cases hob
    split at h
    · simp only [Option.some.injEq] at h
      obtain ⟨f, hf, hpost⟩ := postKind_spec (env := env) ho td
      rw [h] at hpost
      obtain ⟨x, hx, _⟩ := hf.obj_task ho
      cases r with
      | err err => exact hbf (Or.inl ⟨err, rfl⟩)
      | panic m => exact hdone f ⟨x, hx⟩ hpost
      | res r =>
        cases r with
        | done => exact hbf (Or.inr rfl)
        | again => exact hdone f ⟨x, hx⟩ hpost
        | wait => exact hr rfl
        | fail => exact hpost
        | skip => exact hpost
    · rename_i hnw
      split at h
      · cases h
      · simp only [Option.some.injEq] at h
        obtain ⟨f, hf, heval⟩ := evalKind_spec (env := env) ho td
        rw [h] at heval
        obtain ⟨x, hx, _, hxs⟩ := hf.obj_task ho
        have hsame : e' = f → False := by
          rintro rfl
          rw [ho'] at hx; cases hx
          exact hnw (hxs.symm.trans hob)
        cases r with
        | err err => exact hbf (Or.inl ⟨err, rfl⟩)
        | panic m => exact hsame heval
        | res r =>
          cases r with
          | done => exact hbf (Or.inr rfl)
          | again => exact hsame heval
          | wait => exact hr rfl
          | fail => exact heval
          | skip => exact heval

/-- The micro steps inside a step touch only the spans of flow instances. -/
theorem spanStep_inner {e : Eng} (h : e.stack ≠ []) : ∀ op ∈ e.spanStep env, OnFlow op := by
  unfold spanStep
  intro op hop
  split at hop
  · rename_i hs; exact absurd hs h
  · exact spanEnter_flow _ _ op hop
  · cases hop

theorem spanStep_next {e : Eng} {w : WorkItem} (h : next env e = some w) : e.spanStep env = spanExec env (afterPop env e w) w.inst w.obj := by
  obtain ⟨h1, h2, h3⟩ := next_some h
  unfold spanStep
  rw [h1]
  dsimp only
  unfold spanDoStep
  unfold Spec.flowStatus at h2
  cases hI : e.insts[0]? with
  | none => rw [hI] at h2; simp at h2
  | some I =>
    rw [hI] at h2; simp at h2
    dsimp only
    rw [if_pos h2, h3]
    simp [Spec.afterPop]

theorem spanStep_idle {e : Eng} (hs : e.stack = []) (h : next env e = none) : e.spanStep env = [] := by
  unfold spanStep
  rw [hs]
  dsimp only
  unfold spanDoStep
  cases hI : e.insts[0]? with
  | none => rfl
  | some I =>
    dsimp only
    split
    · rename_i ha
      have : flowStatus e 0 = some .active := by unfold Spec.flowStatus; rw [hI]; simp [ha]
      unfold Spec.next at h
      rw [if_pos ⟨hs, this⟩] at h
      rw [h]
    · rfl

/-- The step executes task instance `o` of flow instance `i`, with result `r`. -/
structure Executes (env : Env) (e : Eng) (i o : Nat) (ob : Obj) (td : TaskDef) (r : EvalOut) : Prop where
  obj : e.obj? i o = some ob
  task : e.taskDef? i ob.task = some td
  spans : ∀ c, (ob.status = .waiting → c = .opened) →
    (∀ op ∈ e.spanStep env, About i o op) ∧ (td.kind ≠ .iterator → Single i o c (e.spanStep env)) ∧
    ((c = .opened → ob.status = .waiting) → Safe i o c (e.spanStep env)) ∧
    (r = .res .wait → scan i o c (e.spanStep env) = .opened) ∧ (r ≠ .res .wait → scan i o c (e.spanStep env) ≠ .opened)
  rests : Rests i o e (e.step env)
  waits : ((e.step env).obj? i o).map (·.status) = some .waiting ↔ r = .res .wait

/-- What a step does: nothing to the contexts of task instances, or the execution of one of them. -/
theorem step_cases {e : Eng} (hok : EngOK e) :
    ((∀ op ∈ e.spanStep env, OnFlow op) ∧ ∀ i o, Rests i o e (e.step env)) ∨ ∃ i o ob td r, Executes env e i o ob td r := by
  by_cases hs : e.stack = []
  · have hl : 0 < e.insts.length := by have := hok.ctr; omega
    cases hn : next env e with
    | none =>
      left
      rw [spanStep_idle hs hn, step_idle hs hn hl]
      exact ⟨(fun _ h => nomatch h), fun i o => .of_waits (.of_insts rfl)⟩
    | some w =>
      cases hout : outcome env (afterPop env e w) w.inst w.obj with
      | none =>
        left
        rw [spanStep_next hn, step_next hn, spanExec_none hout, exec_none hout]
        exact ⟨(fun _ h => nomatch h), fun i o => .of_waits (.of_insts rfl)⟩
      | some x =>
        obtain ⟨e', r⟩ := x
        right
        cases ho : (afterPop env e w).obj? w.inst w.obj with
        | none => unfold Spec.outcome at hout; rw [ho] at hout; cases hout
        | some ob =>
          obtain ⟨td, htd, _⟩ := exec_outcome ho hout
          obtain ⟨h1, h2⟩ := exec_rests ho hout
          refine ⟨w.inst, w.obj, ob, td, r, ho, htd, fun c hc => ?_, ?_, ?_⟩
          · rw [spanStep_next hn]; exact exec_spans ho htd hout hc
          · rw [step_next hn]
            exact (Rests.of_waits (b := false) (e := e) (e' := afterPop env e w) (.of_insts rfl)).trans h1
          · rw [step_next hn]; exact h2
  · left
    exact ⟨spanStep_inner hs, fun i o => .of_waits (.inner hs)⟩

end Eng

/-- The invariant of a run with tracing. -/
structure SpanInv (s : SpanRun) : Prop where
  wf : s.st.WF
  own : ∀ i o k, OwnedBy s.st.log k (.task i o) → ∃ ob, s.eng.obj? i o = some ob
  wait : ∀ (i o : Nat) (ob : Obj), s.eng.obj? i o = some ob → ob.status = .waiting → s.st.state i o = .opened
  left : ∀ (i o : Nat) (I : Inst), s.eng.insts[i]? = some I → NotReentered I.trace o → (s.st.state i o = .opened → I.stOf o = some .waiting) ∧
    ∀ k, OwnedBy s.st.log k (.task i o) → finishes s.st.log k = [] → s.st.task i o = some k
  once : ∀ (i o : Nat) (ob : Obj) (td : TaskDef), s.eng.obj? i o = some ob → s.eng.taskDef? i ob.task = some td → td.kind ≠ .iterator →
    ∀ k, OwnedBy s.st.log k (.task i o) → (finishes s.st.log k).length ≤ 1

open SpanSt Eng

/-- Spans of a task instance are started only by the operation that says so. -/
theorem owned_apply {st : SpanSt} {i o k : Nat} {op : SpanOp} (hk : OwnedBy (st.apply op).log k (.task i o)) :
    OwnedBy st.log k (.task i o) ∨ op = .startTask i o := by
  cases op with
  | startTask j p =>
    rcases owned_started.1 hk with ⟨_, hx⟩ | hx
    · cases hx; exact Or.inr rfl
    · exact Or.inl hx
  | endTask j p err =>
    unfold SpanSt.apply at hk
    dsimp only at hk
    split at hk
    · exact Or.inl hk
    · exact Or.inl (owned_finished.1 hk)
  | dropTask => exact Or.inl hk
  | startFlow =>
    rcases owned_started.1 hk with ⟨_, hx⟩ | hx
    · cases hx
    · exact Or.inl hx
  | endFlow j err =>
    unfold SpanSt.apply at hk
    dsimp only at hk
    split at hk
    · exact Or.inl hk
    · exact Or.inl (owned_finished.1 hk)

theorem owned_all {ops : List SpanOp} {st : SpanSt} {i o k : Nat} (hk : OwnedBy (st.applyAll ops).log k (.task i o)) :
    OwnedBy st.log k (.task i o) ∨ .startTask i o ∈ ops := by
  induction ops generalizing st with
  | nil => exact Or.inl hk
  | cons op ops ih =>
    rcases ih hk with h | h
    · rcases owned_apply h with h | h
      · exact Or.inl h
      · exact Or.inr (h ▸ List.mem_cons_self)
    · exact Or.inr (List.mem_cons_of_mem _ h)

theorem notReentered_back {new tr : List Ev} {o : Nat} (h : NotReentered (new ++ tr) o) : NotReentered tr o :=
  fun post pre t t' heq => h (new ++ post) pre t t' (by rw [heq, List.append_assoc])

theorem waiting_event {I : Inst} (hI : InstOK I) {o : Nat} (h : I.stOf o = some .waiting) : ∃ t, .taskStatus o t .waiting ∈ I.trace := by
  unfold Inst.stOf at h
  cases ho : I.objs[o]? with
  | none => rw [ho] at h; cases h
  | some ob =>
    rw [ho] at h
    have h1 : ob.status = .waiting := by simpa using h
    rw [hI.mirror.stat o ob ho] at h1
    generalize I.trace = tr at h1
    clear hI ho h
    induction tr with
    | nil => cases h1
    | cons ev tr ih =>
      cases ev with
      | taskAdded p t =>
        unfold lastStatus at h1
        split at h1
        · cases h1
        · obtain ⟨t', ht'⟩ := ih h1; exact ⟨t', List.mem_cons_of_mem _ ht'⟩
      | taskStatus p t s =>
        unfold lastStatus at h1
        split at h1
        · rename_i hp; subst hp; subst h1; exact ⟨t, List.mem_cons_self⟩
        · obtain ⟨t', ht'⟩ := ih h1; exact ⟨t', List.mem_cons_of_mem _ ht'⟩
      | _ => obtain ⟨t', ht'⟩ := ih h1; exact ⟨t', List.mem_cons_of_mem _ ht'⟩

namespace SpanInv

variable {env : Env} {s : SpanRun}

/-- A task instance that the step does not execute. -/
theorem other (h : SpanInv s) (hok : EngOK s.eng) {i o : Nat} (hr : ∃ a b, ¬ (i = a ∧ o = b) ∧ Rests a b s.eng (s.eng.step env))
    (hs : ∀ c, scan i o c (s.eng.spanStep env) = c ∧ Single i o c (s.eng.spanStep env) ∧ Safe i o c (s.eng.spanStep env))
    (hns : .startTask i o ∉ s.eng.spanStep env) :
    (∀ k, OwnedBy (s.step env).st.log k (.task i o) → ∃ ob, (s.step env).eng.obj? i o = some ob) ∧
    (∀ ob, (s.step env).eng.obj? i o = some ob → ob.status = .waiting → (s.step env).st.state i o = .opened) ∧
    (∀ I, (s.step env).eng.insts[i]? = some I → NotReentered I.trace o → ((s.step env).st.state i o = .opened → I.stOf o = some .waiting) ∧
      ∀ k, OwnedBy (s.step env).st.log k (.task i o) → finishes (s.step env).st.log k = [] → (s.step env).st.task i o = some k) ∧
    (∀ ob td, (s.step env).eng.obj? i o = some ob → (s.step env).eng.taskDef? i ob.task = some td → td.kind ≠ .iterator →
      ∀ k, OwnedBy (s.step env).st.log k (.task i o) → (finishes (s.step env).st.log k).length ≤ 1) := by
  obtain ⟨a, b, hab, hr⟩ := hr
  obtain ⟨_, hx⟩ := Good.step (env := env) s.eng hok
  obtain ⟨w1, w2, w3⟩ := h.wf.all i o (s.eng.spanStep env)
  rw [(hs _).1] at w1
  have hst : (s.step env).st.state i o = s.st.state i o := w1
  have hown : ∀ k, OwnedBy (s.step env).st.log k (.task i o) → OwnedBy s.st.log k (.task i o) := by
    intro k hk
    rcases owned_all hk with hk | hk
    · exact hk
    · exact absurd hk hns
  refine ⟨fun k hk => ?_, fun ob ho hw => ?_, fun I hI hnr => ?_, fun ob td ho htd hki k hk => ?_⟩
  · obtain ⟨ob, ho⟩ := h.own i o k (hown k hk)
    obtain ⟨I, hI, hob⟩ := obj?_some ho
    obtain ⟨I', hI', hext⟩ := hx i I hI
    obtain ⟨ob', hob', _⟩ := hext.objs o ob hob
    exact ⟨ob', by show (s.eng.step env).obj? i o = _; rw [obj?_eq hI', hob']⟩
  · rw [hst]
    obtain ⟨I', hI', hob⟩ := obj?_some ho
    have hw' : I'.stOf o = some .waiting := by unfold Inst.stOf; rw [hob]; simp [hw]
    cases hI : s.eng.insts[i]? with
    | none => exact absurd hw' (hr.fresh i I' hI' hI o hab)
    | some I =>
      obtain ⟨J, hJ, new, hn, hp⟩ := hr.insts i I hI
      have hJI : J = I' := by
        have h2 : (s.eng.step env).insts[i]? = some I' := hI'
        rw [hJ] at h2; exact Option.some.inj h2
      subst hJI
      have h3 := (hp o hab).2 hw'
      unfold Inst.stOf at h3
      cases hob' : I.objs[o]? with
      | none => rw [hob'] at h3; cases h3
      | some x => rw [hob'] at h3; exact h.wait i o x (by rw [obj?_eq hI, hob']) (by simpa using h3)
  · rw [hst]
    have hI' : (s.eng.step env).insts[i]? = some I := hI
    cases hI0 : s.eng.insts[i]? with
    | none =>
      have hno : ∀ k, ¬ OwnedBy s.st.log k (.task i o) := by
        intro k hk
        obtain ⟨ob, ho⟩ := h.own i o k hk
        obtain ⟨J, hJ, _⟩ := obj?_some ho
        rw [hI0] at hJ; cases hJ
      refine ⟨fun hop => ?_, fun k hk => absurd (hown k hk) (hno k)⟩
      obtain ⟨k, hk, _⟩ := state_opened.1 hop
      exact absurd (h.wf.task i o k hk).1 (hno k)
    | some I0 =>
      obtain ⟨J, hJ, new, hn, hp⟩ := hr.insts i I0 hI0
      rw [hJ] at hI'; cases hI'
      rw [hn] at hnr
      obtain ⟨l1, l2⟩ := h.left i o I0 hI0 (notReentered_back hnr)
      refine ⟨fun hop => ?_, w3 (hs _).2.2 l2⟩
      have hw := l1 hop
      rcases (hp o hab).1 hw with hx | ⟨t, ht⟩
      · exact hx
      · obtain ⟨t', ht'⟩ := waiting_event (hok.ok i I0 hI0) hw
        obtain ⟨p1, p2, rfl⟩ := List.append_of_mem ht
        exact absurd (List.mem_append_right p2 ht') (hnr p1 (p2 ++ I0.trace) t t' (by simp))
  · have hk' := hown k hk
    obtain ⟨ob0, ho0⟩ := h.own i o k hk'
    obtain ⟨I, hI, hob⟩ := obj?_some ho0
    obtain ⟨I', hI', hext⟩ := hx i I hI
    obtain ⟨ob', hob', ht⟩ := hext.objs o ob0 hob
    have ho' : (s.eng.step env).obj? i o = some ob := ho
    rw [obj?_eq hI', hob'] at ho'
    cases ho'
    have htd' : s.eng.taskDef? i ob0.task = some td := by
      have h2 : (s.eng.step env).taskDef? i ob.task = some td := htd
      unfold Eng.taskDef? at h2 ⊢
      rw [hI', ht] at h2
      rw [hI]
      dsimp only at h2 ⊢
      rw [hext.defn] at h2; exact h2
    exact w2 (hs _).2.1 (h.once i o ob0 td ho0 htd' hki) k hk

/-- The task instance that the step executes. -/
theorem executed (h : SpanInv s) (hok : EngOK s.eng) {i o : Nat} {ob : Obj} {td : TaskDef} {r : EvalOut} (hex : Executes env s.eng i o ob td r) :
    (∀ k, OwnedBy (s.step env).st.log k (.task i o) → ∃ ob, (s.step env).eng.obj? i o = some ob) ∧
    (∀ ob, (s.step env).eng.obj? i o = some ob → ob.status = .waiting → (s.step env).st.state i o = .opened) ∧
    (∀ I, (s.step env).eng.insts[i]? = some I → NotReentered I.trace o → ((s.step env).st.state i o = .opened → I.stOf o = some .waiting) ∧
      ∀ k, OwnedBy (s.step env).st.log k (.task i o) → finishes (s.step env).st.log k = [] → (s.step env).st.task i o = some k) ∧
    (∀ ob td, (s.step env).eng.obj? i o = some ob → (s.step env).eng.taskDef? i ob.task = some td → td.kind ≠ .iterator →
      ∀ k, OwnedBy (s.step env).st.log k (.task i o) → (finishes (s.step env).st.log k).length ≤ 1) := by
  obtain ⟨_, hx⟩ := Good.step (env := env) s.eng hok
  obtain ⟨w1, w2, w3⟩ := h.wf.all i o (s.eng.spanStep env)
  obtain ⟨I, hI, hob⟩ := obj?_some hex.obj
  obtain ⟨I', hI', hext⟩ := hx i I hI
  obtain ⟨ob', hob', ht⟩ := hext.objs o ob hob
  have ho' : (s.step env).eng.obj? i o = some ob' := by show (s.eng.step env).obj? i o = _; rw [obj?_eq hI', hob']
  obtain ⟨s1, s2, s3, s4, s5⟩ := hex.spans (s.st.state i o) (h.wait i o ob hex.obj)
  have hwait : ob'.status = .waiting ↔ r = .res .wait := by
    have h1 : (s.eng.step env).obj? i o = some ob' := ho'
    have h2 := hex.waits
    rw [h1] at h2
    simpa using h2
  have hopen : (s.step env).st.state i o = .opened ↔ r = .res .wait := by
    have h1 : (s.step env).st.state i o = scan i o (s.st.state i o) (s.eng.spanStep env) := w1
    rw [h1]
    by_cases hr : r = .res .wait
    · exact ⟨fun _ => hr, s4⟩
    · exact ⟨fun hc => absurd hc (s5 hr), fun hc => absurd hc hr⟩
  refine ⟨fun _ _ => ⟨ob', ho'⟩, fun x hxo hxw => ?_, fun J hJ hnr => ?_, fun x xd hxo htd hki => ?_⟩
  · rw [ho'] at hxo; cases hxo
    exact hopen.2 (hwait.1 hxw)
  · have hJ' : (s.eng.step env).insts[i]? = some J := hJ
    rw [hI'] at hJ'; cases hJ'
    refine ⟨fun hop => ?_, ?_⟩
    · unfold Inst.stOf
      rw [hob']
      show some ob'.status = _
      rw [hwait.2 (hopen.1 hop)]
    · obtain ⟨evs, hev⟩ := hext.trace
      rw [hev] at hnr
      obtain ⟨l1, l2⟩ := h.left i o I hI (notReentered_back hnr)
      refine w3 (s3 (fun hop => ?_)) l2
      have := l1 hop
      unfold Inst.stOf at this
      rw [hob] at this
      simpa using this
  · rw [ho'] at hxo; cases hxo
    have htd' : s.eng.taskDef? i ob.task = some xd := by
      have h2 : (s.eng.step env).taskDef? i ob'.task = some xd := htd
      unfold Eng.taskDef? at h2 ⊢
      rw [hI', ht] at h2
      rw [hI]
      dsimp only at h2 ⊢
      rw [hext.defn] at h2; exact h2
    have := hex.task
    rw [htd'] at this
    cases this
    exact w2 (s2 hki) (h.once i o ob _ hex.obj htd' hki)

theorem step (h : SpanInv s) (hok : EngOK s.eng) : SpanInv (s.step env) := by
  have key : ∀ i o, (∀ k, OwnedBy (s.step env).st.log k (.task i o) → ∃ ob, (s.step env).eng.obj? i o = some ob) ∧
    (∀ ob, (s.step env).eng.obj? i o = some ob → ob.status = .waiting → (s.step env).st.state i o = .opened) ∧
    (∀ I, (s.step env).eng.insts[i]? = some I → NotReentered I.trace o → ((s.step env).st.state i o = .opened → I.stOf o = some .waiting) ∧
      ∀ k, OwnedBy (s.step env).st.log k (.task i o) → finishes (s.step env).st.log k = [] → (s.step env).st.task i o = some k) ∧
    (∀ ob td, (s.step env).eng.obj? i o = some ob → (s.step env).eng.taskDef? i ob.task = some td → td.kind ≠ .iterator →
      ∀ k, OwnedBy (s.step env).st.log k (.task i o) → (finishes (s.step env).st.log k).length ≤ 1) := by
    intro i o
    rcases step_cases (env := env) hok with ⟨h1, h2⟩ | ⟨a, b, ob, td, r, hex⟩
    · refine h.other hok ⟨i + 1, o, fun hc => by omega, h2 _ _⟩ (fun c => scan_flow h1 c) (fun hc => ?_)
      exact h1 _ hc
    · by_cases hab : i = a ∧ o = b
      · obtain ⟨rfl, rfl⟩ := hab
        exact h.executed hok hex
      · have habout := (hex.spans (s.st.state a b) (h.wait a b ob hex.obj)).1
        exact h.other hok ⟨a, b, hab, hex.rests⟩ (fun c => scan_other hab habout c) (fun hc => hab (habout _ hc))
  exact ⟨h.wf.applyAll _, fun i o => (key i o).1, fun i o => (key i o).2.1, fun i o => (key i o).2.2.1, fun i o => (key i o).2.2.2⟩

end SpanInv

namespace SpanRun

variable {env : Env}

theorem run_eng (env : Env) (s : SpanRun) (n : Nat) : (run env s n).eng = Eng.run env s.eng n := by
  induction n with
  | zero => rfl
  | succ n ih => show (run env s n).eng.step env = (Eng.run env s.eng n).step env; rw [ih]

theorem init_inv (env : Env) (id uri : String) (d : Def) (ins : AMap String Val) : SpanInv (init env id uri d ins) := by
  have hno : ∀ i o k, ¬ OwnedBy SpanSt.init.log k (.task i o) := by
    rintro i o k ⟨p, hp⟩
    rcases List.mem_cons.1 hp with hx | hx
    · cases hx
    · cases hx
  have hstart : ∀ w p k, SpanEv.started k w p ∈ SpanSt.init.log → k = 0 ∧ w = .flow 0 := by
    intro w p k hk
    rcases List.mem_cons.1 hk with hx | hx
    · cases hx; exact ⟨rfl, rfl⟩
    · cases hx
  refine ⟨⟨fun k w p hk => ?_, fun k err hk => ?_, fun k w w' p p' h1 h2 => ?_, fun i o k hk => ?_, fun j k hk => ?_⟩,
    fun i o k hk => absurd hk (hno i o k), fun i o ob ho hw => ?_, fun i o I hI _ => ⟨fun hop => ?_, fun k hk => absurd hk (hno i o k)⟩,
    fun i o ob td _ _ _ k hk => absurd hk (hno i o k)⟩
  · rw [(hstart w p k hk).1]; exact Nat.zero_lt_one
  · rcases List.mem_cons.1 hk with hx | hx
    · cases hx
    · cases hx
  · rw [(hstart _ _ _ h1).2, (hstart _ _ _ h2).2]
  · cases hk
  · have hk' : setFlow (fun _ => none) 0 (some 0) j = some k := hk
    unfold setFlow at hk'
    split at hk'
    · rename_i hj; subst hj; cases hk'; exact ⟨none, List.mem_singleton.2 rfl⟩
    · cases hk'
  · exfalso
    obtain ⟨I', hI', hob⟩ := obj?_some ho
    have hw' : I'.stOf o = some .waiting := by unfold Inst.stOf; rw [hob]; simp [hw]
    have hwt := WaitsE.startInstance (env := env) (i := 0) (o := 0) (Eng.new id uri d) 0 ins
    cases hI : (Eng.new id uri d).insts[i]? with
    | none => exact hwt.fresh i I' hI' hI o hw'
    | some I =>
      obtain ⟨J, hJ, w⟩ := hwt.insts i I hI
      have hI2 : (startInstance env (Eng.new id uri d) 0 ins).insts[i]? = some I' := hI'
      rw [hJ] at hI2; cases hI2
      have h3 := w.nonew o hw'
      have : I.objs = [] := by
        unfold Eng.new at hI
        cases i with
        | zero => cases hI; rfl
        | succ i => cases hI
      unfold Inst.stOf at h3
      rw [this] at h3; cases h3
  · obtain ⟨k, hk, _⟩ := state_opened.1 hop
    cases hk

theorem inv (env : Env) (id uri : String) (d : Def) (ins : AMap String Val) (n : Nat) : SpanInv (run env (init env id uri d ins) n) := by
  induction n with
  | zero => exact init_inv env id uri d ins
  | succ n ih =>
    refine ih.step ?_
    rw [run_eng]
    exact engOK_run id uri d ins n

end SpanRun

end Flow
