import Verif.Proofs.Retry
import Verif.Spec.Loops

/-
Lemmas about loops: the iterator, one round of an iterator task, and the frame of loop data over a run.
-/

namespace Flow
open Spec

/-- The iterator is about to visit element `k` of `xs`: its position is the one before `k`. -/
structure IterAt (xs : List (Val × Val)) (it : Iter) (k : Nat) : Prop where
  pos : it.current = (k : Int) - 1
  bound : it.bound.toNat = xs.length
  elem : ∀ (j : Nat) (x : Val × Val), xs[j]? = some x →
    ({ it with current := (j : Int) } : Iter).key = x.1 ∧ ({ it with current := (j : Int) } : Iter).value = some x.2

theorem mkIter_elements {toInt : String → Option Int} {order : AMap String Val → List String} (hord : ∀ m, (order m).Perm m.keys)
    {name : String} {v : Val} {it : Iter} (h : mkIter toInt order name v = .ok (some it)) {xs : List (Val × Val)}
    (hx : elements toInt order v = some xs) : IterAt xs it 0 := by
  have hint : ∀ n : Int, IterAt ((List.range n.toNat).map (fun (k : Nat) => (.int k, .int k))) { data := .int n } 0 := by
    intro n
    refine ⟨by rfl, by simp [Iter.bound], ?_⟩
    intro j x hj
    simp only [List.getElem?_map] at hj
    cases hr : (List.range n.toNat)[j]? with
    | none => rw [hr] at hj; cases hj
    | some y =>
      rw [hr] at hj
      have : y = j := by
        have := List.getElem?_eq_some_iff.1 hr
        obtain ⟨h1, h2⟩ := this
        simpa using h2.symm
      subst this
      cases hj
      exact ⟨rfl, rfl⟩
  have harr : ∀ (l : List Val) (D : IterData), (D = .arr l ∨ D = .refl l) → IterAt (l.mapIdx (fun (k : Nat) v => (.int k, v))) { data := D } 0 := by
    intro l D hD
    refine ⟨rfl, by rcases hD with rfl | rfl <;> simp [Iter.bound], ?_⟩
    intro j x hj
    rw [List.getElem?_mapIdx] at hj
    cases hl : l[j]? with
    | none => rw [hl] at hj; cases hj
    | some y =>
      rw [hl] at hj; cases hj
      rcases hD with rfl | rfl
      · exact ⟨rfl, by simp [Iter.value, hl]⟩
      · exact ⟨rfl, by simp [Iter.value, hl]⟩
  cases v with
  | null => cases h
  | bool b => cases h
  | int n => cases h; cases hx; exact hint n
  | str s =>
    simp only [mkIter] at h
    simp only [elements] at hx
    cases hs : toInt s with
    | none => rw [hs] at h; cases h
    | some n => rw [hs] at h hx; cases h; cases hx; exact hint n
  | arr l => cases h; cases hx; exact harr l _ (Or.inl rfl)
  | slice l => cases h; cases hx; exact harr l _ (Or.inr rfl)
  | obj m =>
    cases h; cases hx
    refine ⟨rfl, ?_, ?_⟩
    · have := (hord m).length_eq
      simp [Iter.bound, this, AMap.keys]
    · intro j x hj
      rw [List.getElem?_map] at hj
      cases hl : (order m)[j]? with
      | none => rw [hl] at hj; cases hj
      | some y =>
        rw [hl] at hj; cases hj
        simp [Iter.key, Iter.value, hl]

namespace IterAt

variable {xs : List (Val × Val)} {it : Iter} {k : Nat}

theorem next (h : IterAt xs it k) : IterAt xs it.next.1 (k + 1) := by
  refine ⟨?_, h.bound, h.elem⟩
  show it.current + 1 = _
  rw [h.pos]; push_cast; omega

theorem next_valid (h : IterAt xs it k) : it.next.2 = decide (k < xs.length) := by
  have h1 : it.next.2 = if it.bound ≤ it.current + 1 then false else true := rfl
  rw [h1, h.pos]
  have := h.bound
  by_cases hk : k < xs.length
  · rw [if_neg (by omega)]; simp [hk]
  · rw [if_pos (by omega)]; simp [hk]

theorem next_elem (h : IterAt xs it k) {x : Val × Val} (hx : xs[k]? = some x) :
    it.next.1.key = x.1 ∧ it.next.1.value = some x.2 ∧ it.next.1.current = k := by
  have h1 : it.next.1 = { it with current := (k : Int) } := by
    have : it.next.1 = { it with current := it.current + 1 } := rfl
    rw [this, h.pos]
    congr 1
    omega
  rw [h1]
  exact ⟨(h.elem k x hx).1, (h.elem k x hx).2, rfl⟩

end IterAt

namespace Eng

variable {env : Env} {k : Bool} {i o : Nat}

/-- The state handed to the activity: its call is recorded. -/
def called (e : Eng) (i o : Nat) (t : TaskRef) : Eng := e.modI i (fun I => { I with trace := .evalAct o t :: I.trace })

/-- The activity of a task instance is called in the state `c`, once, and `e'` is what is left after processing its
outputs. -/
structure CallsIn (env : Env) (i o : Nat) (t : TaskRef) (e c e' : Eng) : Prop where
  before : ∃ b, LocalE true i o e b ∧ c = b.called i o t
  after : LocalE true i o (c.applyActOut i o (env.act c i o)) e'

/-- The state in which a task without interceptors calls its activity. -/
def callState (env : Env) (e : Eng) (i o : Nat) (ob : Obj) (td : TaskDef) : Eng :=
  (e.applyInputMapper env i o td.name).1.called i o ob.task

/-- An evaluation calls the activity and then processes its result. -/
theorem evalOnce_call (hs : Steady env i o) {e : Eng} {ob : Obj} {td : TaskDef} (ho : e.obj? i o = some ob)
    (htd : e.taskDef? i ob.task = some td) (hact : td.act.sub? = none) :
    e.evalOnce env i o =
      match (env.act (e.callState env i o ob td) i o).res with
      | .done => afterDone env ((e.callState env i o ob td).applyActOut i o (env.act (e.callState env i o ob td) i o)) i o ob td
      | .wait => ((e.callState env i o ob td).applyActOut i o (env.act (e.callState env i o ob td) i o), .ok false)
      | .err err => (((e.callState env i o ob td).applyActOut i o (env.act (e.callState env i o ob td) i o)).evalErrorData i ob.task.id
          (err.setActivity td.name), .error (err.setActivity td.name))
      | .panic m => ((e.callState env i o ob td).applyActOut i o (env.act (e.callState env i o ob td) i o), .error (.eval td.name "unhandled" m)) := by
  have hm2 : (e.applyInputMapper env i o td.name).2 = none := by
    unfold Eng.applyInputMapper
    split
    · rfl
    · rename_i m hm; exact absurd hm (hs.inMap _ _)
    · rfl
  have hE : e.evalOnce env i o = evalWith env (inputInterceptor env (e.applyInputMapper env i o td.name).1 i o ob) i o ob td := by
    conv => lhs; unfold Eng.evalOnce
    rw [ho]
    dsimp only
    rw [htd]
    dsimp only
    generalize e.applyInputMapper env i o td.name = q at hm2
    obtain ⟨e1, r⟩ := q
    dsimp only at hm2
    subst hm2
    rfl
  unfold Eng.callState
  generalize (e.applyInputMapper env i o td.name).1 = e1 at hE
  have hi : inputInterceptor env e1 i o ob = (e1, true) := by
    unfold Eng.inputInterceptor Eng.icpIn; rw [hs.icp]
  rw [hi] at hE
  have hmk : mocked env e1 i ob = false := by
    unfold Eng.mocked Eng.icpOut
    cases e1.insts[i]? with
    | none => rfl
    | some I => dsimp only; rw [hs.icp]
  unfold Eng.evalWith at hE
  rw [if_neg (by simp)] at hE
  dsimp only at hE
  rw [hs.inSchema] at hE
  dsimp only at hE
  rw [hmk] at hE
  rw [if_neg (by simp)] at hE
  have hc : e1.callActivity env i o ob td =
      match (env.act (e1.called i o ob.task) i o).res with
      | .done => ((e1.called i o ob.task).applyActOut i o (env.act (e1.called i o ob.task) i o), .ok true, false)
      | .wait => ((e1.called i o ob.task).applyActOut i o (env.act (e1.called i o ob.task) i o), .ok false, false)
      | .err err => ((e1.called i o ob.task).applyActOut i o (env.act (e1.called i o ob.task) i o), .error (err.setActivity td.name), false)
      | .panic m => ((e1.called i o ob.task).applyActOut i o (env.act (e1.called i o ob.task) i o), .error (.eval td.name "unhandled" m), true) := by
    unfold Eng.callActivity
    dsimp only
    cases ha : td.act with
    | subflow u => rw [ha] at hact; cases hact
    | _ => rfl
  rw [hc] at hE
  rw [hE]
  cases ha : (env.act (e1.called i o ob.task) i o).res with
  | done => rfl
  | wait => rfl
  | err err => rfl
  | panic m => rfl

theorem evalOnce_steady (hs : Steady env i o) {e : Eng} {ob : Obj} {td : TaskDef} (ho : e.obj? i o = some ob)
    (htd : e.taskDef? i ob.task = some td) (hact : td.act.sub? = none) :
    ∃ c, CallsIn env i o ob.task e c (e.evalOnce env i o).1 ∧
      match (env.act c i o).res with
      | .done => (e.evalOnce env i o).2 = .ok true ∨ ∃ err, (e.evalOnce env i o).2 = .error err
      | .wait => (e.evalOnce env i o).2 = .ok false
      | .err _ => ∃ err, (e.evalOnce env i o).2 = .error err
      | .panic _ => ∃ err, (e.evalOnce env i o).2 = .error err := by
  have hm := LocalE.applyInputMapper (k := true) (env := env) (i := i) (o := o) e td.name
  have hE := evalOnce_call hs ho htd hact
  refine ⟨e.callState env i o ob td, ?_⟩
  rw [hE]
  cases ha : (env.act (e.callState env i o ob td) i o).res with
  | done => exact ⟨⟨⟨_, hm, rfl⟩, LocalE.afterDone _ _ _⟩, afterDone_result _ _ _⟩
  | wait => exact ⟨⟨⟨_, hm, rfl⟩, LocalE.refl _ _ _ _⟩, rfl⟩
  | err err => exact ⟨⟨⟨_, hm, rfl⟩, LocalE.evalErrorData _ _ _⟩, _, rfl⟩
  | panic m => exact ⟨⟨⟨_, hm, rfl⟩, LocalE.refl _ _ _ _⟩, _, rfl⟩

theorem evalActivity_noRetry {e : Eng} {ob : Obj} {td : TaskDef} (ho : e.obj? i o = some ob)
    (htd : e.taskDef? i ob.task = some td) (hr : td.retry = false) : e.evalActivity env i o = e.evalOnce env i o := by
  have hev := Evals.evalOnce (env := env) (i := i) (o := o) e
  obtain ⟨ob1, ho1, ht1⟩ := hev.obj_task ho
  obtain ⟨I, hI⟩ := inst_of_obj ho
  have h1 := hev.taskDef? hI ob.task
  unfold Eng.evalActivity
  generalize e.evalOnce env i o = q at ho1 h1
  obtain ⟨e1, r⟩ := q
  cases r with
  | ok d => rfl
  | error err =>
    dsimp only at ho1 h1 ⊢
    have : e1.hasRetry i o = false := by
      unfold Eng.hasRetry
      rw [ho1]
      dsimp only
      rw [ht1.1, h1, htd]
      exact hr
    rw [this]; simp

theorem called_inst {e : Eng} {t : TaskRef} {I : Inst} (hI : e.insts[i]? = some I) :
    (e.called i o t).insts[i]? = some { I with trace := .evalAct o t :: I.trace } := modI_self hI _

theorem called_obj {e : Eng} {t : TaskRef} : (e.called i o t).obj? i o = e.obj? i o := by
  unfold Eng.obj? Eng.called
  rw [modI_getElem?, if_pos rfl]
  cases e.insts[i]? <;> rfl

theorem applyActOut_inst {e : Eng} {I : Inst} (hI : e.insts[i]? = some I) (a : ActOut) :
    ∃ I', (e.applyActOut i o a).insts[i]? = some I' ∧ I'.trace = I.trace ∧ I'.defn = I.defn ∧ SameWork I I' := by
  have h2 : ∀ (J : Inst), J.trace = I.trace → J.defn = I.defn → SameWork I J →
      ∀ e' : Eng, e'.insts[i]? = some J → ∃ I', e'.insts[i]? = some I' ∧ I'.trace = I.trace ∧ I'.defn = I.defn ∧ SameWork I I' :=
    fun J h1 h2 h3 e' he => ⟨J, he, h1, h2, h3⟩
  obtain ⟨J, hJ, h3, h4, h5⟩ : ∃ J, (e.modI i (fun I =>
    let I1 := { I with attrs := I.attrs.update a.sets }
    let I2 := match a.outputs with
      | none => I1
      | some m => I1.modO o (fun x => { x with outputs := m })
    match a.ret with
    | none => I2
    | some (d, err) => { I2 with force := true, returnData := d, returnError := err })).insts[i]? = some J ∧
      J.trace = I.trace ∧ J.defn = I.defn ∧ SameWork I J := by
    rw [modI_self hI]
    refine ⟨_, rfl, ?_⟩
    dsimp only
    have hmo : ∀ m, SameWork I ({ I with attrs := I.attrs.update a.sets }.modO o (fun x => { x with outputs := m })) := fun m =>
      (SameWork.of_objs (I' := { I with attrs := I.attrs.update a.sets }) rfl).trans
        (SameWork.modO _ o (fun x => { x with outputs := m }) (fun _ => rfl))
    cases a.outputs with
    | none => cases a.ret <;> exact ⟨rfl, rfl, SameWork.of_objs rfl⟩
    | some m =>
      cases a.ret with
      | none => exact ⟨rfl, rfl, hmo m⟩
      | some p => exact ⟨rfl, rfl, (hmo m).trans (SameWork.of_objs rfl)⟩
  unfold Eng.applyActOut
  dsimp only at hJ ⊢
  cases a.reply with
  | none => exact ⟨J, hJ, h3, h4, h5⟩
  | some p =>
    obtain ⟨d, err⟩ := p
    dsimp only
    split
    · rename_i h0; subst h0
      exact ⟨{ J with returnData := some d }, modI_self (i := 0) hJ _, h3, h4, h5.trans (SameWork.of_objs rfl)⟩
    · exact ⟨J, hJ, h3, h4, h5⟩

/-- What a call leaves of the instance: one more call in the trace, same tasks, statuses and working data. -/
theorem CallsIn.inst {t : TaskRef} {e c e' : Eng} (h : CallsIn env i o t e c e') {I : Inst} (hI : e.insts[i]? = some I) :
    ∃ I', e'.insts[i]? = some I' ∧ I'.trace = .evalAct o t :: I.trace ∧ I'.defn = I.defn ∧ SameWork I I' := by
  obtain ⟨⟨b, hb, rfl⟩, ha⟩ := h
  obtain ⟨I1, h1, h2⟩ := hb.inst hI
  obtain ⟨I2, h3, h4, h5, h6⟩ := applyActOut_inst (o := o) (called_inst (o := o) (t := t) h1) (env.act (b.called i o t) i o)
  obtain ⟨I3, h7, h8⟩ := ha.inst h3
  refine ⟨I3, h7, ?_, ?_, ?_⟩
  · rw [h8.trace, h4]; simp [h2.trace]
  · rw [h8.defn, h5]; exact h2.defn
  · exact ((LocalInst.sameWork h2).trans ((SameWork.of_objs rfl).trans h6)).trans (LocalInst.sameWork h8)

theorem CallsIn.work {t : TaskRef} {e c e' : Eng} (h : CallsIn env i o t e c e') :
    (c.obj? i o).map (·.work) = (e.obj? i o).map (·.work) := by
  obtain ⟨⟨b, hb, rfl⟩, ha⟩ := h
  rw [called_obj]
  exact hb.work

theorem SameWork.obj {I I' : Inst} (h : SameWork I I') {ob : Obj} (ho : I.objs[o]? = some ob) :
    ∃ ob', I'.objs[o]? = some ob' ∧ ob'.task = ob.task ∧ ob'.status = ob.status ∧ ob'.returnError = ob.returnError ∧ ob'.work = ob.work := by
  have := h o
  rw [ho] at this
  cases h' : I'.objs[o]? with
  | none => rw [h'] at this; cases this
  | some ob' =>
    rw [h'] at this
    simp only [Option.map_some, Option.some.injEq, Prod.mk.injEq] at this
    exact ⟨ob', rfl, this⟩

theorem calls_setStatus (e : Eng) {st : TaskStatus} : Spec.calls (e.setStatus i o st) i = Spec.calls e i := by
  unfold Spec.calls
  cases hI : e.insts[i]? with
  | none =>
    have : (e.setStatus i o st).insts[i]? = none := by unfold Eng.setStatus; rw [modI_getElem?]; simp [hI]
    rw [this]
  | some I =>
    have : (e.setStatus i o st).insts[i]? = some (I.setTaskStatus o st) := modI_self hI _
    rw [this]
    dsimp only
    unfold Inst.setTaskStatus
    split <;> rfl

/-- One round of an iterator task that is about to visit element `k`. -/
theorem evalIter_round (hs : Steady env i o) {e : Eng} {I : Inst} {ob : Obj} {td : TaskDef} (hI : e.insts[i]? = some I)
    (ho : I.objs[o]? = some ob) (htd : e.taskDef? i ob.task = some td) (hact : td.act.sub? = none) (hr : td.retry = false)
    {xs : List (Val × Val)} {it : Iter} {k : Nat} (hg : getIter env e i o td = .ok (some it)) (hk : IterAt xs it k) :
    (∃ I' ob' it', (e.evalIter env i o td).1.insts[i]? = some I' ∧ I'.objs[o]? = some ob' ∧ ob'.task = ob.task ∧
      ob'.iter = some it' ∧ IterAt xs it' (k + 1) ∧
      I'.trace.count (.evalAct o ob.task) = I.trace.count (.evalAct o ob.task) + (if k < xs.length then 1 else 0)) ∧
    (∀ x, xs[k]? = some x → ∃ e1 c e2, LocalE false i o e e1 ∧ CallsIn env i o ob.task e1 c e2 ∧
        (c.obj? i o).bind (·.iteration) = some (x.1, x.2, (k : Int)) ∧
        iterResult (.res .again) (env.act c i o).res (e.evalIter env i o td).2 ∧
        Spec.calls (e.evalIter env i o td).1 i = Spec.calls e2 i) ∧
    (xs.length ≤ k → (e.evalIter env i o td).2 = .res .done ∧ LocalE false i o e (e.evalIter env i o td).1) := by
  have hv := hk.next_valid
  unfold Eng.evalIter
  rw [hg]
  dsimp only
  by_cases hlt : k < xs.length
  · have hx : xs[k]? = some xs[k] := List.getElem?_eq_getElem hlt
    obtain ⟨hkey, hval, hcur⟩ := hk.next_elem hx
    rw [if_neg (by rw [hv]; simp [hlt]), hval]
    dsimp only
    have hl1 : LocalE false i o e (e.modI i (fun I => I.modO o (fun x =>
        { x with iter := some it.next.1, iteration := some (it.next.1.key, xs[k].2, it.next.1.current) }))) :=
      .mk' _ _ (fun _ => .modO _ (fun _ => ⟨rfl, rfl, rfl⟩) (fun h => nomatch h))
    have hI1 : (e.modI i (fun I => I.modO o (fun x =>
        { x with iter := some it.next.1, iteration := some (it.next.1.key, xs[k].2, it.next.1.current) }))).insts[i]? =
        some (I.modO o (fun x => { x with iter := some it.next.1, iteration := some (it.next.1.key, xs[k].2, it.next.1.current) })) :=
      modI_self hI _
    have ho1 : (I.modO o (fun x => { x with iter := some it.next.1, iteration := some (it.next.1.key, xs[k].2, it.next.1.current) })).objs[o]? =
        some { ob with iter := some it.next.1, iteration := some (it.next.1.key, xs[k].2, it.next.1.current) } := by
      simp [Inst.modO, ho]
    generalize (e.modI i (fun I => I.modO o (fun x =>
        { x with iter := some it.next.1, iteration := some (it.next.1.key, xs[k].2, it.next.1.current) }))) = e1 at hl1 hI1
    have hob1 : e1.obj? i o = some { ob with iter := some it.next.1, iteration := some (it.next.1.key, xs[k].2, it.next.1.current) } := by
      rw [obj?_eq hI1]; exact ho1
    have htd1 : e1.taskDef? i ob.task = some td := by rw [hl1.taskDef]; exact htd
    rw [evalActivity_noRetry hob1 htd1 hr]
    obtain ⟨c, hc, hres⟩ := evalOnce_steady hs hob1 htd1 hact
    obtain ⟨I2, hI2, htr, hdf, hsw⟩ := hc.inst hI1
    obtain ⟨ob2, ho2, ht2, _, _, hw2⟩ := hsw.obj ho1
    have hw : (c.obj? i o).bind (·.iteration) = some (xs[k].1, xs[k].2, (k : Int)) := by
      have h1 := hc.work
      rw [hob1] at h1
      cases hco : c.obj? i o with
      | none => rw [hco] at h1; cases h1
      | some obc =>
        rw [hco] at h1
        simp only [Option.map_some, Option.some.injEq, Obj.work, Prod.mk.injEq] at h1
        simp only [Option.bind_some]
        rw [h1.2.2.1, hkey, hcur]
    have hcnt : I2.trace.count (.evalAct o ob.task) = I.trace.count (.evalAct o ob.task) + 1 := by
      rw [htr]; simp [Inst.modO]
    have hit2 : ob2.iter = some it.next.1 := by
      have := hw2; simp only [Obj.work, Prod.mk.injEq] at this; exact this.2.1
    generalize e1.evalOnce env i o = qq at hc hres hI2 ⊢
    obtain ⟨e2, r⟩ := qq
    dsimp only at hc hres hI2
    have hst : ∀ st, ∃ I' ob' it', (e2.setStatus i o st).insts[i]? = some I' ∧ I'.objs[o]? = some ob' ∧ ob'.task = ob.task ∧
      ob'.iter = some it' ∧ IterAt xs it' (k + 1) ∧
      I'.trace.count (.evalAct o ob.task) = I.trace.count (.evalAct o ob.task) + 1 := by
      intro st
      have hcalm := Calm.setTaskStatus I2 o st
      obtain ⟨ob3, ho3, ht3, hw3⟩ := hcalm.work.kept o ob2 ho2
      refine ⟨I2.setTaskStatus o st, ob3, it.next.1, modI_self hI2 _, ho3, ht3.trans ht2, ?_, hk.next, ?_⟩
      · have := hw3; simp only [Obj.work, Prod.mk.injEq] at this; rw [this.2.1]; exact hit2
      · rw [(Calm.keepObj hcalm o).calls]; exact hcnt
    rw [if_pos hlt]
    have hno : ∀ P : Prop, (xs.length ≤ k → P) := fun P h => absurd hlt (by omega)
    cases r with
    | error err =>
      refine ⟨hst _, fun x hx' => ⟨e1, c, e2, hl1, hc, ?_, ?_, calls_setStatus _⟩, hno _⟩
      · rw [hx] at hx'; cases hx'; exact hw
      · revert hres
        cases (env.act c i o).res with
        | done => exact fun _ => Or.inr ⟨err, rfl⟩
        | wait => exact fun h => nomatch h
        | err e => exact fun _ => ⟨err, rfl⟩
        | panic e => exact fun _ => ⟨err, rfl⟩
    | ok b =>
      cases b with
      | true =>
        refine ⟨⟨I2, ob2, it.next.1, hI2, ho2, ht2, hit2, hk.next, hcnt⟩, fun x hx' => ⟨e1, c, e2, hl1, hc, ?_, ?_, rfl⟩, hno _⟩
        · rw [hx] at hx'; cases hx'; exact hw
        · revert hres
          cases (env.act c i o).res with
          | done => exact fun _ => Or.inl rfl
          | wait => exact fun h => nomatch h
          | err e => exact fun h => nomatch h
          | panic e => exact fun h => nomatch h
      | false =>
        refine ⟨hst _, fun x hx' => ⟨e1, c, e2, hl1, hc, ?_, ?_, calls_setStatus _⟩, hno _⟩
        · rw [hx] at hx'; cases hx'; exact hw
        · revert hres
          cases (env.act c i o).res with
          | done => exact fun h => by rcases h with h | ⟨_, h⟩ <;> cases h
          | wait => exact fun h => rfl
          | err e => exact fun h => nomatch h
          | panic e => exact fun h => nomatch h
  · rw [if_pos (by rw [hv]; simp [hlt])]
    refine ⟨?_, fun x hx' => ?_, fun _ => ⟨rfl, .mk' _ _ (fun _ => .modO _ (fun _ => ⟨rfl, rfl, rfl⟩) (fun h => nomatch h))⟩⟩
    · refine ⟨_, { ob with iter := some it.next.1, iteration := some (ob.iteration.getD (.null, .null, 0)) }, it.next.1, modI_self hI _, ?_, rfl, rfl, hk.next, ?_⟩
      · simp [Inst.modO, ho]
      · rw [if_neg hlt]; rfl
    · rw [List.getElem?_eq_none (by omega)] at hx'; cases hx'

/-! ### Steps seen from one task object -/

theorem callPost_inst {e : Eng} {I : Inst} (hI : e.insts[i]? = some I) (td : TaskDef) :
    ∃ I', (e.callPost env i o td).1.insts[i]? = some I' ∧ I'.trace = I.trace ∧ I'.defn = I.defn ∧ SameWork I I' := by
  unfold Eng.callPost
  split
  · dsimp only
    split <;> exact applyActOut_inst hI _
  · exact ⟨I, hI, rfl, rfl, SameWork.of_objs rfl⟩

/-- Resuming an activity calls no `Eval` and keeps the working data. -/
theorem postOnce_inst {e : Eng} {I : Inst} (hI : e.insts[i]? = some I) :
    ∃ I', (e.postOnce env i o).1.insts[i]? = some I' ∧ (∀ t, I'.trace.count (.evalAct o t) = I.trace.count (.evalAct o t)) ∧
      I'.defn = I.defn ∧ SameWork I I' := by
  have hrefl : ∃ I', e.insts[i]? = some I' ∧ (∀ t, I'.trace.count (.evalAct o t) = I.trace.count (.evalAct o t)) ∧
      I'.defn = I.defn ∧ SameWork I I' := ⟨I, hI, fun _ => rfl, rfl, SameWork.of_objs rfl⟩
  unfold Eng.postOnce
  split
  · exact hrefl
  · rename_i ob hob
    split
    · exact hrefl
    · rename_i td htd
      have h1 : (e.modI i (fun I => { I with trace := .postAct o ob.task :: I.trace })).insts[i]? =
          some { I with trace := .postAct o ob.task :: I.trace } := modI_self hI _
      obtain ⟨I2, h2, h3, h4, h5⟩ := callPost_inst (env := env) (o := o) h1 td
      have h6 : ∃ I', (callPost env (e.modI i (fun I => { I with trace := .postAct o ob.task :: I.trace })) i o td).1.insts[i]? = some I' ∧
          (∀ t, I'.trace.count (.evalAct o t) = I.trace.count (.evalAct o t)) ∧ I'.defn = I.defn ∧ SameWork I I' :=
        ⟨I2, h2, fun t => by rw [h3]; simp, h4, (SameWork.of_objs rfl).trans h5⟩
      generalize callPost env (e.modI i (fun I => { I with trace := .postAct o ob.task :: I.trace })) i o td = qq at h6
      obtain ⟨e1, r⟩ := qq
      dsimp only at h6
      cases r with
      | error err => exact h6
      | ok d =>
        dsimp only
        split
        · exact h6
        · split
          · obtain ⟨I3, h7, h8, h9, h10⟩ := h6
            obtain ⟨I4, h11, h12⟩ := (LocalE.postStore (k := true) (env := env) (i := i) (o := o) e1 ob td).inst h7
            exact ⟨I4, h11, fun t => by rw [h12.trace]; exact h8 t, h12.defn.trans h9, h10.trans (LocalInst.sameWork h12)⟩
          · exact h6

theorem SameWork.keepObj {I I' : Inst} (h : SameWork I I') (hc : ∀ t, I'.trace.count (.evalAct o t) = I.trace.count (.evalAct o t))
    (hd : I'.defn = I.defn) : KeepObj o I I' := by
  refine ⟨fun ob hob => ?_, hc, hd⟩
  obtain ⟨ob', h1, h2, _, _, h3⟩ := SameWork.obj h hob
  exact ⟨ob', h1, h2, h3⟩

theorem postIter_keep {e : Eng} {I : Inst} (hI : e.insts[i]? = some I) :
    ∃ I', (e.postIter env i o).1.insts[i]? = some I' ∧ KeepObj o I I' := by
  obtain ⟨I1, h1, h2, h3, h4⟩ := postOnce_inst (env := env) (o := o) hI
  have hk := SameWork.keepObj h4 h2 h3
  unfold Eng.postIter
  generalize e.postOnce env i o = qq at h1
  obtain ⟨e1, r⟩ := qq
  dsimp only at h1
  have hst : ∀ st, ∃ I', (e1.setStatus i o st).insts[i]? = some I' ∧ KeepObj o I I' := fun st =>
    ⟨I1.setTaskStatus o st, modI_self h1 _, hk.trans (Calm.keepObj (Calm.setTaskStatus I1 o st) o)⟩
  cases r with
  | error err => exact hst _
  | ok u =>
    dsimp only
    split <;> exact hst _

/-- A step that does not evaluate task instance `o` of instance `i`. -/
theorem step_ops_ne {e : Eng} (hl : 0 < e.insts.length) (hne : ∀ t e' r, ¬ Evaluates env e i o t e' r) :
    ∃ j q, Ops env j q e (e.step env) ∧ (j ≠ i ∨ q ≠ some o) := by
  cases hn : Spec.next env e with
  | none =>
    refine ⟨_, _, Ops.step (env := env) hl, Or.inr ?_⟩
    rw [hn]; simp
  | some w =>
    by_cases hw : w.inst = i ∧ w.obj = o
    · obtain ⟨h1, h2⟩ := hw
      have hout : outcome env (afterPop env e w) i o = none := by
        cases ho : outcome env (afterPop env e w) i o with
        | none => rfl
        | some p =>
          exfalso
          obtain ⟨e', r⟩ := p
          cases hob : e.obj? i o with
          | none =>
            unfold Spec.outcome at ho
            have : (afterPop env e w).obj? i o = none := hob
            rw [this] at ho; cases ho
          | some ob => exact hne ob.task e' r ⟨⟨w, hn, h1, h2, ho⟩, by rw [hob]; rfl⟩
      refine ⟨i, none, ?_, Or.inr (by simp)⟩
      rw [step_next hn, h1, h2, exec_none hout]
      exact Ops.ctl rfl
    · refine ⟨_, _, Ops.step (env := env) hl, ?_⟩
      unfold Spec.actor
      rw [hn]
      by_cases h1 : w.inst = i
      · right; intro h2; apply hw; refine ⟨h1, ?_⟩; simpa using h2
      · left; exact h1

theorem step_keep {e : Eng} (hl : 0 < e.insts.length) (hne : ∀ t e' r, ¬ Evaluates env e i o t e' r) {I : Inst}
    (hI : e.insts[i]? = some I) : ∃ I', (e.step env).insts[i]? = some I' ∧ KeepObj o I I' := by
  obtain ⟨j, q, h1, h2⟩ := step_ops_ne (env := env) (o := o) hl hne
  exact h1.keep i o I (h2.imp Ne.symm fun h => h) hI

theorem evaluates_keep {e e' : Eng} {t : TaskRef} {r : EvalOut} (h : Evaluates env e i o t e' r) {I : Inst}
    (hI : e'.insts[i]? = some I) : ∃ I', (e.step env).insts[i]? = some I' ∧ KeepObj o I I' := by
  obtain ⟨⟨name, h1⟩, _⟩ := evaluates_step h
  rw [h1]
  exact (Ops.handleResult (env := env) (q := none) e' i o t name r).keep i o I (Or.inr (by simp)) hI

theorem evaluates_eval {e e' : Eng} {t : TaskRef} {r : EvalOut} (h : Evaluates env e i o t e' r) {ob : Obj} {td : TaskDef}
    (ho : e.obj? i o = some ob) (htd : e.taskDef? i ob.task = some td) :
    ∃ w, next env e = some w ∧ w.inst = i ∧ w.obj = o ∧
      (ob.status = .waiting → (e', r) = (afterPop env e w).postKind env i o td) ∧
      (ob.status ≠ .waiting → (e', r) = (afterPop env e w).evalKind env i o td) := by
  obtain ⟨⟨w, h1, h2, h3, h4⟩, _⟩ := h
  refine ⟨w, h1, h2, h3, ?_⟩
  unfold Spec.outcome at h4
  have h5 : (afterPop env e w).obj? i o = some ob := ho
  have h6 : (afterPop env e w).taskDef? i ob.task = some td := htd
  rw [h5] at h4
  dsimp only at h4
  rw [h6] at h4
  dsimp only at h4
  split at h4
  · rename_i hw
    exact ⟨fun _ => (Option.some.inj h4).symm, fun hn => absurd hw hn⟩
  · rename_i hw
    split at h4
    · cases h4
    · refine ⟨fun h => absurd h hw, fun _ => ?_⟩
      exact (Option.some.inj h4).symm

/-! ### The iterator over a run -/

/-- The task object has not started its loop. -/
structure Unstarted (o : Nat) (I : Inst) : Prop where
  iter : ∀ ob : Obj, I.objs[o]? = some ob → ob.iter = none
  calls : ∀ t, I.trace.count (.evalAct o t) = 0

theorem Unstarted.keep {I I' : Inst} (h : Unstarted o I) (k : KeepObj o I I') (hex : (I.objs[o]?).isSome) : Unstarted o I' := by
  refine ⟨fun ob' hob' => ?_, fun t => (k.calls t).trans (h.calls t)⟩
  obtain ⟨ob, hob⟩ := Option.isSome_iff_exists.1 hex
  obtain ⟨ob1, h1, _, h3⟩ := k.obj ob hob
  rw [hob'] at h1; cases h1
  simp only [Obj.work, Prod.mk.injEq] at h3
  rw [h3.2.1]; exact h.iter ob hob

theorem Unstarted.stable (o : Nat) : StableAt o (Unstarted o) := by
  have hsame : ∀ {I I' : Inst}, I'.objs = I.objs → (∀ t, I'.trace.count (.evalAct o t) = I.trace.count (.evalAct o t)) →
      Unstarted o I → Unstarted o I' := fun h1 h2 h => ⟨by rw [h1]; exact h.iter, fun t => (h2 t).trans (h.calls t)⟩
  refine ⟨?_, ?_, ?_, ?_, ?_, ?_, ?_⟩
  · intro I I' hc h
    refine ⟨fun ob' hob' => ?_, fun t => ((Calm.keepObj hc o).calls t).trans (h.calls t)⟩
    cases hob : I.objs[o]? with
    | none =>
      have := hc.work.born o ob' hob' hob
      simp only [Obj.work, Prod.mk.injEq] at this
      exact this.2.1
    | some ob =>
      obtain ⟨ob1, h1, _, h3⟩ := hc.work.kept o ob hob
      rw [hob'] at h1; cases h1
      simp only [Obj.work, Prod.mk.injEq] at h3
      rw [h3.2.1]; exact h.iter ob hob
  · intro p I I' hp hs h
    refine ⟨fun ob' hob' => ?_, fun t => ((SameInst.keepObj hs hp).calls t).trans (h.calls t)⟩
    rw [hs.other o (Ne.symm hp)] at hob'
    exact h.iter ob' hob'
  · intro I a h; exact hsame (I := I) rfl (fun _ => rfl) h
  · intro I s h; exact hsame (I := I) rfl (fun _ => by simp [Inst.setFlowStatus]) h
  · intro I h; exact hsame (I := I) rfl (fun _ => rfl) h
  · intro I h; exact hsame (I := I) rfl (fun _ => by simp) h
  · intro I err h; exact hsame (I := I) rfl (fun _ => rfl) h

theorem Unstarted.fresh (o : Nat) (d : Def) (uri : String) (k : Nat) (h : Option (Nat × Nat)) :
    Unstarted o { defn := d, uri := uri, subflowId := k, host := h } :=
  ⟨fun ob hob => by simp at hob, fun t => by simp⟩

theorem Unstarted.init (id uri : String) (d : Def) (ins : AMap String Val) (i o : Nat) :
    ∀ I, (Eng.init env id uri d ins).insts[i]? = some I → Unstarted o I := by
  intro J hJ
  unfold Eng.init at hJ
  have hlen := (StartFrame.startInstance (env := env) 0 (Eng.new id uri d) ins).len
  have hj : i = 0 := by
    have := (List.getElem?_eq_some_iff.1 hJ).1
    rw [hlen] at this
    simp [Eng.new] at this
    exact this
  subst hj
  obtain ⟨I', h2, h3⟩ := startInstance_calm (env := env) (Eng.new id uri d) 0 ins (I := { defn := d, uri := uri }) rfl
  rw [h2] at hJ; cases hJ
  exact (Unstarted.stable o).calm h3 ((Unstarted.stable o).flow _ ((Unstarted.stable o).attrs _ (Unstarted.fresh o d uri 0 none)))

/-- The task and its definition do not change over a run. -/
theorem task_back {e : Eng} (hr : Reachable env e) (m : Nat) {ob' : Obj} {td : TaskDef} (ho' : (e.run env m).obj? i o = some ob')
    (htd : (e.run env m).taskDef? i ob'.task = some td) {ob : Obj} (ho : e.obj? i o = some ob) :
    ob.task = ob'.task ∧ e.taskDef? i ob.task = some td := by
  have hext : ∀ m, EExt e (e.run env m) := by
    intro m
    induction m with
    | zero => exact .refl e
    | succ m ih => exact ih.trans (Good.step (env := env) (e.run env m) (engOK_reachable (reachable_run hr m))).2
  obtain ⟨I, hI, hob⟩ := obj?_some ho
  obtain ⟨I', hI', h1⟩ := hext m i I hI
  obtain ⟨ob1, h2, h3⟩ := h1.objs o ob hob
  have h4 : (e.run env m).obj? i o = some ob1 := by rw [obj?_eq hI']; exact h2
  rw [ho'] at h4; cases h4
  refine ⟨h3.symm, ?_⟩
  unfold Eng.taskDef? at htd ⊢
  rw [hI'] at htd; rw [hI]
  dsimp only at htd ⊢
  rw [h1.defn] at htd
  rw [← h3]; exact htd

theorem afterPop_obj (e : Eng) (w : WorkItem) : (afterPop env e w).obj? i o = e.obj? i o := rfl

/-- A step that resumes an iterator task keeps its loop data. -/
theorem resume_keep {e e' : Eng} {t : TaskRef} {r : EvalOut} (h : Evaluates env e i o t e' r) {I : Inst} {ob : Obj} {td : TaskDef}
    (hI : e.insts[i]? = some I) (ho : I.objs[o]? = some ob) (hw : ob.status = .waiting)
    (htd : e.taskDef? i ob.task = some td) (hkind : td.kind = .iterator) :
    ∃ I', (e.step env).insts[i]? = some I' ∧ KeepObj o I I' := by
  obtain ⟨w, _, _, _, h4, _⟩ := evaluates_eval h (by rw [obj?_eq hI]; exact ho) htd
  have h5 := h4 hw
  have h6 : (afterPop env e w).postKind env i o td = (afterPop env e w).postIter env i o := by
    unfold Eng.postKind; rw [hkind]
  rw [h6] at h5
  have hI' : (afterPop env e w).insts[i]? = some I := hI
  obtain ⟨I1, h7, h8⟩ := postIter_keep (env := env) (o := o) hI'
  rw [← h5] at h7
  obtain ⟨I2, h9, h10⟩ := evaluates_keep h h7
  exact ⟨I2, h9, h8.trans h10⟩

theorem Unstarted.step {e : Eng} (hl : 0 < e.insts.length) (h : ∀ I, e.insts[i]? = some I → Unstarted o I)
    (hns : ∀ t e' r, ¬ Starts env e i o t e' r)
    (hkind : ∀ ob, e.obj? i o = some ob → ∃ td, e.taskDef? i ob.task = some td ∧ td.kind = .iterator) :
    ∀ I, (e.step env).insts[i]? = some I → Unstarted o I := by
  by_cases hev : ∃ t e' r, Evaluates env e i o t e' r
  · obtain ⟨t, e', r, hev⟩ := hev
    have ho : ∃ ob, e.obj? i o = some ob := by
      have := hev.task
      cases h : e.obj? i o with
      | none => rw [h] at this; cases this
      | some ob => exact ⟨ob, rfl⟩
    obtain ⟨ob, ho⟩ := ho
    obtain ⟨I, hI, hob⟩ := obj?_some ho
    have hw : ob.status = .waiting := by
      apply Classical.byContradiction
      intro hw
      refine hns t e' r ⟨hev, fun ob' ho' => ?_⟩
      rw [ho] at ho'; cases ho'; exact hw
    obtain ⟨td, htd, hk⟩ := hkind ob ho
    obtain ⟨I', h1, h2⟩ := resume_keep hev hI hob hw htd hk
    intro J hJ
    rw [h1] at hJ; cases hJ
    exact (h I hI).keep h2 (by rw [hob]; rfl)
  · obtain ⟨j, q, h1, h2⟩ := step_ops_ne (env := env) (i := i) (o := o) hl (fun t e' r hh => hev ⟨t, e', r, hh⟩)
    exact (Unstarted.stable o).ops (Unstarted.fresh o) h1 h2 h

/-- The loop of the task object is about to visit element `k`, all earlier ones were visited. -/
def Looping (xs : List (Val × Val)) (i o : Nat) (t : TaskRef) (e : Eng) (k : Nat) : Prop :=
  ∃ I ob it, e.insts[i]? = some I ∧ I.objs[o]? = some ob ∧ ob.task = t ∧ ob.iter = some it ∧ IterAt xs it k ∧
    I.trace.count (.evalAct o t) = min k xs.length

theorem Looping.keep {xs : List (Val × Val)} {t : TaskRef} {e e' : Eng} {n : Nat} (h : Looping xs i o t e n)
    (hk : ∀ I, e.insts[i]? = some I → ∃ I', e'.insts[i]? = some I' ∧ KeepObj o I I') : Looping xs i o t e' n := by
  obtain ⟨I, ob, it, h1, h2, h3, h4, h5, h6⟩ := h
  obtain ⟨I', h7, h8⟩ := hk I h1
  obtain ⟨ob', h9, h10, h11⟩ := h8.obj ob h2
  simp only [Obj.work, Prod.mk.injEq] at h11
  exact ⟨I', ob', it, h7, h9, h10.trans h3, h11.2.1.trans h4, h5, (h8.calls t).trans h6⟩

/-- A step that does not start an evaluation keeps the position of the loop. -/
theorem Looping.idle {xs : List (Val × Val)} {t : TaskRef} {e : Eng} {n : Nat} (h : Looping xs i o t e n) (hl : 0 < e.insts.length)
    (hns : ∀ t e' r, ¬ Starts env e i o t e' r) {td : TaskDef} (htd : e.taskDef? i t = some td) (hkind : td.kind = .iterator) :
    Looping xs i o t (e.step env) n := by
  refine h.keep fun I hI => ?_
  by_cases hev : ∃ t e' r, Evaluates env e i o t e' r
  · obtain ⟨t', e', r, hev⟩ := hev
    obtain ⟨I0, ob, it, h1, h2, h3, _⟩ := h
    rw [hI] at h1; cases h1
    have hw : ob.status = .waiting := by
      apply Classical.byContradiction
      intro hw
      refine hns t' e' r ⟨hev, fun ob' ho' => ?_⟩
      rw [obj?_eq hI, h2] at ho'; cases ho'; exact hw
    exact resume_keep hev hI h2 hw (h3 ▸ htd) hkind
  · exact step_keep (env := env) hl (fun t e' r hh => hev ⟨t, e', r, hh⟩) hI

/-- What one evaluation of an iterator task does that is about to visit element `k`. -/
structure Round (env : Env) (i o : Nat) (t : TaskRef) (xs : List (Val × Val)) (k : Nat) (e e' : Eng) (r : EvalOut) : Prop where
  visit : ∀ x, xs[k]? = some x → ∃ e1 c e2, LocalE false i o e e1 ∧ CallsIn env i o t e1 c e2 ∧
    (c.obj? i o).bind (·.iteration) = some (x.1, x.2, (k : Int)) ∧ iterResult (.res .again) (env.act c i o).res r ∧
    Spec.calls e' i = Spec.calls e2 i
  stop : xs.length ≤ k → r = .res .done ∧ LocalE false i o e e'

theorem round_of_getIter (hs : Steady env i o) {e e' : Eng} {t : TaskRef} {r : EvalOut} (h : Starts env e i o t e' r) {I : Inst}
    {ob : Obj} {td : TaskDef} (hI : e.insts[i]? = some I) (ho : I.objs[o]? = some ob) (htd : e.taskDef? i ob.task = some td)
    (hkind : td.kind = .iterator) (hact : td.act.sub? = none) (hr : td.retry = false)
    {xs : List (Val × Val)} {it : Iter} {k : Nat}
    (hg : ∀ w, next env e = some w → getIter env (afterPop env e w) i o td = .ok (some it)) (hk : IterAt xs it k)
    (hc : I.trace.count (.evalAct o t) = min k xs.length) :
    ∃ w, next env e = some w ∧ Round env i o t xs k (afterPop env e w) e' r ∧ Looping xs i o t (e.step env) (k + 1) := by
  obtain ⟨hev, hnw⟩ := h
  have hob : e.obj? i o = some ob := by rw [obj?_eq hI]; exact ho
  have ht : ob.task = t := by have := hev.task; rw [hob] at this; cases this; rfl
  obtain ⟨w, hn, _, _, _, h5⟩ := evaluates_eval hev hob htd
  have h6 := h5 (hnw ob hob)
  have h7 : (afterPop env e w).evalKind env i o td = (afterPop env e w).evalIter env i o td := by
    unfold Eng.evalKind; rw [hkind]
  rw [h7] at h6
  have hI' : (afterPop env e w).insts[i]? = some I := hI
  obtain ⟨⟨I1, ob1, it1, h8, h9, h10, h11, h12, h13⟩, h14, h15⟩ :=
    evalIter_round hs hI' ho (show (afterPop env e w).taskDef? i ob.task = some td from htd) hact hr (hg w hn) hk
  rw [← h6] at h8 h14 h15
  refine ⟨w, hn, ⟨fun x hx => ?_, h15⟩, ?_⟩
  · rw [← ht]; exact h14 x hx
  · obtain ⟨I2, h16, h17⟩ := evaluates_keep hev h8
    have : Looping xs i o t e' (k + 1) := by
      refine ⟨I1, ob1, it1, h8, h9, h10.trans ht, h11, h12, ?_⟩
      rw [ht] at h13
      rw [h13, hc]
      split <;> omega
    exact this.keep (fun J hJ => by rw [h8] at hJ; cases hJ; exact ⟨I2, h16, h17⟩)

theorem getIter_some {e : Eng} {ob : Obj} {td : TaskDef} {it : Iter} (ho : e.obj? i o = some ob) (hi : ob.iter = some it) :
    getIter env e i o td = .ok (some it) := by
  unfold getIter; rw [ho]; simp [hi]

theorem taskDef_step {e : Eng} (hr : Reachable env e) {t : TaskRef} {td : TaskDef} (h : e.taskDef? i t = some td) :
    (e.step env).taskDef? i t = some td := by
  unfold Eng.taskDef? at h ⊢
  cases hI : e.insts[i]? with
  | none => rw [hI] at h; cases h
  | some I =>
    rw [hI] at h
    obtain ⟨I', hI', h1⟩ := (Good.step (env := env) e (engOK_reachable hr)).2 i I hI
    rw [hI']
    dsimp only at h ⊢
    rw [h1.defn]; exact h

theorem insts_pos {e : Eng} (hr : Reachable env e) : 0 < e.insts.length := by have := (engOK_reachable hr).ctr; omega

theorem evalCount_eq {e : Eng} {I : Inst} (hI : e.insts[i]? = some I) (t : TaskRef) :
    evalCount e i o t = I.trace.count (.evalAct o t) := by
  unfold evalCount; rw [hI]

theorem CallsIn.calls {t : TaskRef} {e c e' : Eng} (h : CallsIn env i o t e c e') {I : Inst} (hI : e.insts[i]? = some I) :
    Spec.calls c i = .evalAct o t :: Spec.calls e i ∧ Spec.calls e' i = Spec.calls c i := by
  obtain ⟨⟨b, hb, rfl⟩, ha⟩ := h
  obtain ⟨J, hJ, hl⟩ := hb.inst hI
  have h1 := called_inst (o := o) (t := t) hJ
  obtain ⟨K, hK, h2, _⟩ := applyActOut_inst (o := o) h1 (env.act (b.called i o t) i o)
  obtain ⟨L, hL, hl2⟩ := ha.inst hK
  unfold Spec.calls
  rw [hI, hL, h1]
  dsimp only
  rw [hl2.trace, h2, hl.trace]
  exact ⟨rfl, rfl⟩

/-! ### Do-while -/

theorem modO_obj {I : Inst} {ob : Obj} (ho : I.objs[o]? = some ob) (f : Obj → Obj) : (I.modO o f).objs[o]? = some (f ob) := by
  simp [Inst.modO, ho]

/-- One round of a do-while task. -/
theorem evalDoWhile_round (hs : Steady env i o) {e : Eng} {I : Inst} {ob : Obj} {td : TaskDef} (hI : e.insts[i]? = some I)
    (ho : I.objs[o]? = some ob) (htd : e.taskDef? i ob.task = some td) (hact : td.act.sub? = none) (hr : td.retry = false) :
    ∃ e1 c e2, LocalE false i o e e1 ∧ CallsIn env i o ob.task e1 c e2 ∧
      (c.obj? i o).bind (·.dwIndex) = some (ob.dwIndex.getD 0) ∧ (e2.obj? i o).bind (·.dwIndex) = some (ob.dwIndex.getD 0) ∧
      Spec.calls (e.evalDoWhile env i o td).1 i = Spec.calls e2 i ∧
      doWhileResult (if td.hasCondition then some (env.cond e2 i o) else none) (env.act c i o).res (e.evalDoWhile env i o td).2 ∧
      ((e.evalDoWhile env i o td).2 = .res .again → ∃ I' ob', (e.evalDoWhile env i o td).1.insts[i]? = some I' ∧
        I'.objs[o]? = some ob' ∧ ob'.task = ob.task ∧ ob'.dwIndex = some (ob.dwIndex.getD 0 + 1) ∧
        I'.trace.count (.evalAct o ob.task) = I.trace.count (.evalAct o ob.task) + 1) := by
  unfold Eng.evalDoWhile
  have hl1 : LocalE false i o e (e.dwInit i o) := .mk' _ _ (fun _ => .modO _ (fun _ => ⟨rfl, rfl, rfl⟩) (fun h => nomatch h))
  have hI1 : (e.dwInit i o).insts[i]? = some (I.modO o (fun x => { x with dwIndex := some (x.dwIndex.getD 0) })) := modI_self hI _
  have ho1 := modO_obj ho (fun x => { x with dwIndex := some (x.dwIndex.getD 0) })
  have htr1 : (I.modO o (fun x => { x with dwIndex := some (x.dwIndex.getD 0) })).trace = I.trace := rfl
  generalize (I.modO o (fun x => { x with dwIndex := some (x.dwIndex.getD 0) })) = I1 at hI1 ho1 htr1
  generalize e.dwInit i o = e1 at hl1 hI1
  have hob1 : e1.obj? i o = some { ob with dwIndex := some (ob.dwIndex.getD 0) } := by rw [obj?_eq hI1]; exact ho1
  have htd1 : e1.taskDef? i ob.task = some td := by rw [hl1.taskDef]; exact htd
  rw [evalActivity_noRetry hob1 htd1 hr]
  obtain ⟨c, hc, hres⟩ := evalOnce_steady hs hob1 htd1 hact
  obtain ⟨I2, hI2, htr, hdf, hsw⟩ := hc.inst hI1
  obtain ⟨ob2, ho2, ht2, _, _, hw2⟩ := hsw.obj ho1
  simp only [Obj.work, Prod.mk.injEq] at hw2
  have hwc : (c.obj? i o).bind (·.dwIndex) = some (ob.dwIndex.getD 0) := by
    have h1 := hc.work
    rw [hob1] at h1
    cases hco : c.obj? i o with
    | none => rw [hco] at h1; cases h1
    | some obc =>
      rw [hco] at h1
      simp only [Option.map_some, Option.some.injEq, Obj.work, Prod.mk.injEq] at h1
      simp only [Option.bind_some]
      exact h1.2.2.2
  generalize e1.evalOnce env i o = qq at hc hres hI2
  obtain ⟨e2, r⟩ := qq
  dsimp only at hc hres hI2
  have hw2' : (e2.obj? i o).bind (·.dwIndex) = some (ob.dwIndex.getD 0) := by
    rw [obj?_eq hI2, ho2]; exact hw2.2.2.2
  refine ⟨e1, c, e2, hl1, hc, hwc, hw2', ?_⟩
  cases r with
  | error err =>
    refine ⟨calls_setStatus _, ?_, fun h => nomatch h⟩
    revert hres
    cases (env.act c i o).res with
    | done => exact fun _ => Or.inr ⟨err, rfl⟩
    | wait => exact fun h => nomatch h
    | err e => exact fun _ => ⟨err, rfl⟩
    | panic e => exact fun _ => ⟨err, rfl⟩
  | ok b =>
    cases b with
    | false =>
      refine ⟨calls_setStatus _, ?_, fun h => nomatch h⟩
      revert hres
      cases (env.act c i o).res with
      | done => exact fun h => by rcases h with h | ⟨_, h⟩ <;> cases h
      | wait => exact fun h => rfl
      | err e => exact fun h => nomatch h
      | panic e => exact fun h => nomatch h
    | true =>
      dsimp only
      unfold Eng.dwCheck
      dsimp only
      have hI3 : (e2.dwUpdate i o).insts[i]? = some (I2.modO o (fun x => { x with dwIndex := some (x.dwIndex.getD 0 + 1) })) := modI_self hI2 _
      refine ⟨?_, ?_, ?_⟩
      · unfold Spec.calls
        rw [hI2, hI3]; rfl
      · revert hres
        cases (env.act c i o).res with
        | done =>
          refine fun _ => Or.inl ?_
          split
          · cases env.cond e2 i o with
            | ok b => cases b <;> rfl
            | err err => rfl
            | panic m => rfl
          · rfl
        | wait => exact fun h => nomatch h
        | err e => exact fun h => nomatch h
        | panic e => exact fun h => nomatch h
      · intro _
        refine ⟨_, _, hI3, modO_obj ho2 _, ht2, ?_, ?_⟩
        · dsimp only; rw [hw2.2.2.2]; rfl
        · show I2.trace.count _ = _
          rw [htr, htr1]; simp

/-- The index of a do-while task is the number of calls of its activity. -/
structure Counted (o : Nat) (I : Inst) : Prop where
  none : I.objs[o]? = none → ∀ t, I.trace.count (.evalAct o t) = 0
  some : ∀ ob : Obj, I.objs[o]? = some ob → ob.dwIndex.getD 0 = I.trace.count (.evalAct o ob.task)

theorem Counted.keep {I I' : Inst} (h : Counted o I) (k : KeepObj o I I') {ob : Obj} (hob : I.objs[o]? = .some ob) : Counted o I' := by
  obtain ⟨ob1, h1, h2, h3⟩ := k.obj ob hob
  refine ⟨fun hn => (by rw [h1] at hn; cases hn), fun ob' hob' => ?_⟩
  rw [hob'] at h1; cases h1
  simp only [Obj.work, Prod.mk.injEq] at h3
  rw [h3.2.2.2, k.calls, h2]; exact h.some ob hob

theorem Counted.stable (o : Nat) : StableAt o (Counted o) := by
  have hsame : ∀ {I I' : Inst}, I'.objs = I.objs → (∀ t, I'.trace.count (.evalAct o t) = I.trace.count (.evalAct o t)) →
      Counted o I → Counted o I' := fun h1 h2 h => ⟨by rw [h1]; intro hn t; rw [h2]; exact h.none hn t,
        by rw [h1]; intro ob hob; rw [h2]; exact h.some ob hob⟩
  refine ⟨?_, ?_, ?_, ?_, ?_, ?_, ?_⟩
  · intro I I' hc h
    cases hob : I.objs[o]? with
    | none =>
      refine ⟨fun _ t => ((Calm.keepObj hc o).calls t).trans (h.none hob t), fun ob' hob' => ?_⟩
      have := hc.work.born o ob' hob' hob
      simp only [Obj.work, Prod.mk.injEq] at this
      rw [this.2.2.2, (Calm.keepObj hc o).calls, h.none hob]; rfl
    | some ob => exact h.keep (Calm.keepObj hc o) hob
  · intro p I I' hp hs h
    have h1 := hs.other o (Ne.symm hp)
    exact ⟨fun hn t => ((SameInst.keepObj hs hp).calls t).trans (h.none (h1 ▸ hn) t),
      fun ob' hob' => by rw [(SameInst.keepObj hs hp).calls]; exact h.some ob' (h1 ▸ hob')⟩
  · intro I a h; exact hsame (I := I) rfl (fun _ => rfl) h
  · intro I s h; exact hsame (I := I) rfl (fun _ => by simp [Inst.setFlowStatus]) h
  · intro I h; exact hsame (I := I) rfl (fun _ => rfl) h
  · intro I h; exact hsame (I := I) rfl (fun _ => by simp) h
  · intro I err h; exact hsame (I := I) rfl (fun _ => rfl) h

theorem Counted.fresh (o : Nat) (d : Def) (uri : String) (k : Nat) (h : Option (Nat × Nat)) :
    Counted o { defn := d, uri := uri, subflowId := k, host := h } :=
  ⟨fun _ t => by simp, fun ob hob => by simp at hob⟩

theorem StableAt.init {P : Inst → Prop} (hP : StableAt o P)
    (hfresh : ∀ d uri k h, P { defn := d, uri := uri, subflowId := k, host := h }) (id uri : String) (d : Def) (ins : AMap String Val) (i : Nat) :
    ∀ I, (Eng.init env id uri d ins).insts[i]? = some I → P I := by
  intro J hJ
  unfold Eng.init at hJ
  have hlen := (StartFrame.startInstance (env := env) 0 (Eng.new id uri d) ins).len
  have hj : i = 0 := by
    have := (List.getElem?_eq_some_iff.1 hJ).1
    rw [hlen] at this
    simp [Eng.new] at this
    exact this
  subst hj
  obtain ⟨I', h2, h3⟩ := startInstance_calm (env := env) (Eng.new id uri d) 0 ins (I := { defn := d, uri := uri }) rfl
  rw [h2] at hJ; cases hJ
  exact hP.calm h3 (hP.flow _ (hP.attrs _ (hfresh d uri 0 none)))

/-! ### Accumulated outputs -/

theorem accumulate_spec {e e' : Eng} {I : Inst} (hI : e.insts[i]? = some I) {t : TaskId} (h : e.accumulate i o t = (e', none)) :
    ∃ l, entries (I.attrs.get? ("_A." ++ t)) = some l ∧
      e'.insts[i]? = some (I.setValue ("_A." ++ t) (.arr (l ++ [.obj (((I.objs[o]?).bind (·.outputs)).getD [])]))) := by
  unfold Eng.accumulate at h
  rw [hI] at h
  dsimp only at h
  split at h
  · rename_i hn
    cases h
    exact ⟨[], by rw [hn]; rfl, modI_self hI _⟩
  · rename_i l hl
    cases h
    exact ⟨l, by rw [hl]; rfl, modI_self hI _⟩
  · cases h

theorem icpOut_none (hs : ∀ s, env.icp s = none) (e : Eng) (ob : Obj) : icpOut env e i ob = none := by
  unfold Eng.icpOut
  cases e.insts[i]? with
  | none => rfl
  | some I => exact hs _

theorem afterDone_accumulate (hs : ∀ s, env.icp s = none) {e : Eng} {I : Inst} {ob : Obj} {td : TaskDef} (hI : e.insts[i]? = some I)
    (hacc : td.accumulates = true) (hout : td.appliesOutput = false) (h : (afterDone env e i o ob td).2 = .ok true) :
    ∃ l, entries (I.attrs.get? ("_A." ++ ob.task.id)) = some l ∧
      (afterDone env e i o ob td).1.insts[i]? =
        some (I.setValue ("_A." ++ ob.task.id) (.arr (l ++ [.obj (((I.objs[o]?).bind (·.outputs)).getD [])]))) := by
  unfold Eng.afterDone at h ⊢
  cases hsch : env.outSchema e i o with
  | some err => rw [hsch] at h; cases h
  | none =>
    rw [hsch] at h
    dsimp only at h ⊢
    have h1 : outputInterceptor env e i o ob td = (e, none) := by
      unfold Eng.outputInterceptor; rw [icpOut_none hs]
    have h2 : ∀ e2, assertion env e2 i ob = (e2, none) := by
      intro e2; unfold Eng.assertion; rw [icpOut_none hs]
    rw [h1] at h ⊢
    unfold Eng.storeOutputs at h ⊢
    simp only [Eng.andThen, hacc, hout, if_true] at h ⊢
    cases hq : e.accumulate i o ob.task.id with
    | mk e1 er =>
      rw [hq] at h
      cases er with
      | some err => cases h
      | none =>
        simp only [Bool.false_eq_true, if_false, h2, Eng.doneOrErr]
        exact accumulate_spec hI hq

/-! ### Resuming a loop task -/

theorem setTaskStatus_obj {I : Inst} {ob : Obj} (ho : I.objs[o]? = some ob) (st : TaskStatus) :
    (I.setTaskStatus o st).objs[o]? = some { ob with status := st } := by
  unfold Inst.setTaskStatus; rw [ho]; simp [ho]

/-- A resumed loop task that does not fail is marked done. -/
theorem postLoop_done {e : Eng} {I : Inst} {ob : Obj} {td : TaskDef} (hI : e.insts[i]? = some I) (ho : I.objs[o]? = some ob)
    (hkind : td.kind ≠ .basic) : (∃ err, (e.postKind env i o td).2 = .err err) ∨
      ∃ ob', (e.postKind env i o td).1.obj? i o = some ob' ∧ ob'.status = .done ∧ ob'.task = ob.task := by
  unfold Eng.postKind
  cases hk : td.kind with
  | basic => exact absurd hk hkind
  | iterator =>
    dsimp only
    obtain ⟨I1, h1, h2, h3, h4⟩ := postOnce_inst (env := env) (o := o) hI
    obtain ⟨ob1, g1, g2, _⟩ := SameWork.obj h4 ho
    unfold Eng.postIter
    generalize e.postOnce env i o = qq at h1
    obtain ⟨e1, r⟩ := qq
    cases r with
    | error err => exact Or.inl ⟨_, rfl⟩
    | ok u =>
      dsimp only at h1 ⊢
      have h5 : (e1.setStatus i o .done).insts[i]? = some (I1.setTaskStatus o .done) := modI_self h1 _
      have h6 := setTaskStatus_obj g1 .done
      refine Or.inr ⟨{ ob1 with status := .done }, ?_, rfl, g2⟩
      split <;> rw [obj?_eq h5, h6]
  | doWhile =>
    dsimp only
    have hI0 : (e.dwInit i o).insts[i]? = some (I.modO o (fun x => { x with dwIndex := some (x.dwIndex.getD 0) })) := modI_self hI _
    have ho0 := modO_obj ho (fun x => { x with dwIndex := some (x.dwIndex.getD 0) })
    obtain ⟨I1, h1, h2, h3, h4⟩ := postOnce_inst (env := env) (o := o) hI0
    obtain ⟨ob1, g1, g2, _⟩ := SameWork.obj h4 ho0
    unfold Eng.postDoWhile
    generalize (e.dwInit i o).postOnce env i o = qq at h1
    obtain ⟨e1, r⟩ := qq
    cases r with
    | error err => exact Or.inl ⟨_, rfl⟩
    | ok u =>
      dsimp only at h1 ⊢
      have h5 : (e1.setStatus i o .done).insts[i]? = some (I1.setTaskStatus o .done) := modI_self h1 _
      have h6 := setTaskStatus_obj g1 .done
      unfold Eng.dwCheck
      dsimp only
      have h7 : ((e1.setStatus i o .done).dwUpdate i o).insts[i]? =
        some ((I1.setTaskStatus o .done).modO o (fun x => { x with dwIndex := some (x.dwIndex.getD 0 + 1) })) := modI_self h5 _
      exact Or.inr ⟨_, (obj?_eq h7).trans (modO_obj h6 (fun x => { x with dwIndex := some (x.dwIndex.getD 0 + 1) })), rfl, g2⟩

/-- The condition of a resumed do-while task. -/
theorem postDoWhile_cond {e : Eng} {I : Inst} {ob : Obj} {td : TaskDef} (hI : e.insts[i]? = some I) (ho : I.objs[o]? = some ob) :
    (∃ err, (e.postDoWhile env i o td).2 = .err err) ∨
      ∃ f ob', f.obj? i o = some ob' ∧ ob'.status = .done ∧ ob'.dwIndex = some (ob.dwIndex.getD 0) ∧
        (e.postDoWhile env i o td).2 = afterCondition (if td.hasCondition then some (env.cond f i o) else none) := by
  have hI0 : (e.dwInit i o).insts[i]? = some (I.modO o (fun x => { x with dwIndex := some (x.dwIndex.getD 0) })) := modI_self hI _
  have ho0 := modO_obj ho (fun x => { x with dwIndex := some (x.dwIndex.getD 0) })
  obtain ⟨I1, h1, h2, h3, h4⟩ := postOnce_inst (env := env) (o := o) hI0
  obtain ⟨ob1, g1, g2, _, _, g5⟩ := SameWork.obj h4 ho0
  simp only [Obj.work, Prod.mk.injEq] at g5
  unfold Eng.postDoWhile
  generalize (e.dwInit i o).postOnce env i o = qq at h1
  obtain ⟨e1, r⟩ := qq
  cases r with
  | error err => exact Or.inl ⟨_, rfl⟩
  | ok u =>
    dsimp only at h1 ⊢
    have h5 : (e1.setStatus i o .done).insts[i]? = some (I1.setTaskStatus o .done) := modI_self h1 _
    have h6 := setTaskStatus_obj g1 .done
    unfold Eng.dwCheck
    dsimp only
    refine Or.inr ⟨e1.setStatus i o .done, _, (obj?_eq h5).trans h6, rfl, g5.2.2.2, ?_⟩
    split
    · cases env.cond (e1.setStatus i o .done) i o with
      | ok b => cases b <;> rfl
      | err err => rfl
      | panic m => rfl
    · rfl

end Eng
end Flow
