import Verif.Model.Engine

/-
What the evaluation of a task instance can change: a closure of elementary effects (`Evals`), and the proof that every
evaluation function stays inside it.
-/

namespace Flow

/-- Working data of a task instance: retries, iterator, iteration variable, do-while index. -/
def Obj.work (x : Obj) : Option Int × Option Iter × Option (Val × Val × Int) × Option Nat :=
  (x.retry, x.iter, x.iteration, x.dwIndex)

/-- The parts of a flow instance that an evaluation of task object `o` leaves alone. -/
structure SameInst (o : Nat) (I I' : Inst) : Prop where
  defn : I'.defn = I.defn
  uri : I'.uri = I.uri
  subflowId : I'.subflowId = I.subflowId
  host : I'.host = I.host
  handling : I'.handling = I.handling
  status : I'.status = I.status
  tasks : I'.tasks = I.tasks
  links : I'.links = I.links
  len : I'.objs.length = I.objs.length
  core : ∀ p : Nat, (I'.objs[p]?).map (fun x : Obj => (x.task, x.status)) = (I.objs[p]?).map (fun x : Obj => (x.task, x.status))
  other : ∀ p : Nat, p ≠ o → I'.objs[p]? = I.objs[p]?
  force : I.force = true → I'.force = true
  posted : I'.posted = I.posted
  err : I'.force = false → I'.returnError = I.returnError
  keys : I.attrs.keys.Nodup → I'.attrs.keys.Nodup
  trace : ∃ evs, I'.trace = evs ++ I.trace ∧
    ∀ ev ∈ evs, ∃ ob, I.objs[o]? = some ob ∧ (ev = .evalAct o ob.task ∨ ev = .postAct o ob.task)

theorem AMap.nodup_keys_update {K V : Type} [DecidableEq K] {m : AMap K V} (h : m.keys.Nodup) (n : AMap K V) : (m.update n).keys.Nodup := by
  unfold AMap.update
  induction n generalizing m with
  | nil => exact h
  | cons p n ih => exact ih (AMap.nodup_keys_set h _ _)

namespace SameInst

theorem refl (o : Nat) (I : Inst) : SameInst o I I :=
  ⟨rfl, rfl, rfl, rfl, rfl, rfl, rfl, rfl, rfl, fun _ => rfl, fun _ _ => rfl, id, rfl, fun _ => rfl, id, [], rfl, by simp⟩

theorem task_eq {o : Nat} {I I' : Inst} (h : SameInst o I I') {p : Nat} {ob : Obj} (hp : I'.objs[p]? = some ob) :
    ∃ ob', I.objs[p]? = some ob' ∧ ob'.task = ob.task ∧ ob'.status = ob.status := by
  have := h.core p
  rw [hp] at this
  cases h2 : I.objs[p]? with
  | none => rw [h2] at this; simp at this
  | some ob' => rw [h2] at this; simp at this; exact ⟨ob', rfl, this.1.symm, this.2.symm⟩

theorem task_eq' {o : Nat} {I I' : Inst} (h : SameInst o I I') {p : Nat} {ob : Obj} (hp : I.objs[p]? = some ob) :
    ∃ ob', I'.objs[p]? = some ob' ∧ ob'.task = ob.task ∧ ob'.status = ob.status := by
  have := h.core p
  rw [hp] at this
  cases h2 : I'.objs[p]? with
  | none => rw [h2] at this; simp at this
  | some ob' => rw [h2] at this; simp at this; exact ⟨ob', rfl, this.1, this.2⟩

theorem trans {o : Nat} {I J K : Inst} (h : SameInst o I J) (g : SameInst o J K) : SameInst o I K := by
  refine ⟨g.defn.trans h.defn, g.uri.trans h.uri, g.subflowId.trans h.subflowId, g.host.trans h.host,
    g.handling.trans h.handling, g.status.trans h.status, g.tasks.trans h.tasks, g.links.trans h.links,
    g.len.trans h.len, fun p => (g.core p).trans (h.core p), fun p hp => (g.other p hp).trans (h.other p hp),
    fun hf => g.force (h.force hf), g.posted.trans h.posted, fun hf => (g.err hf).trans (h.err ?_), fun hn => g.keys (h.keys hn), ?_⟩
  · cases hj : J.force with
    | «false» => rfl
    | «true» => rw [g.force hj] at hf; cases hf
  obtain ⟨a, ha, ha'⟩ := h.trace
  obtain ⟨b, hb, hb'⟩ := g.trace
  refine ⟨b ++ a, by rw [hb, ha, List.append_assoc], fun ev hev => ?_⟩
  rcases List.mem_append.1 hev with h1 | h1
  · obtain ⟨ob, hob, hev'⟩ := hb' ev h1
    obtain ⟨ob', hob', ht, _⟩ := h.task_eq hob
    exact ⟨ob', hob', by rw [ht]; exact hev'⟩
  · exact ha' ev h1

theorem modO {o : Nat} {I : Inst} (f : Obj → Obj) (ht : ∀ x, (f x).task = x.task) (hs : ∀ x, (f x).status = x.status) :
    SameInst o I (I.modO o f) := by
  refine ⟨rfl, rfl, rfl, rfl, rfl, rfl, rfl, rfl, by simp [Inst.modO], fun p => ?_, fun p hp => ?_, id, rfl, fun _ => rfl, id, [], rfl, by simp⟩
  · simp only [Inst.modO, List.getElem?_modify]
    split
    · cases I.objs[p]? <;> simp [ht, hs]
    · simp
  · simp only [Inst.modO, List.getElem?_modify]
    have : ¬ o = p := fun h => hp h.symm
    simp [this]

theorem attrs {o : Nat} {I : Inst} (a : AMap String Val) (h : I.attrs.keys.Nodup → a.keys.Nodup) : SameInst o I { I with attrs := a } :=
  ⟨rfl, rfl, rfl, rfl, rfl, rfl, rfl, rfl, rfl, fun _ => rfl, fun _ _ => rfl, id, rfl, fun _ => rfl, h, [], rfl, by simp⟩

theorem setValue {o : Nat} {I : Inst} (k : String) (v : Val) : SameInst o I (I.setValue k v) := attrs _ fun h => AMap.nodup_keys_set h _ _

theorem ret {o : Nat} {I : Inst} (d : Option (AMap String Val)) (er : Option Err) :
    SameInst o I { I with force := true, returnData := d, returnError := er } :=
  ⟨rfl, rfl, rfl, rfl, rfl, rfl, rfl, rfl, rfl, fun _ => rfl, fun _ _ => rfl, fun _ => rfl, rfl, (fun h => nomatch h), id, [], rfl, by simp⟩

theorem retData {o : Nat} {I : Inst} (d : Option (AMap String Val)) : SameInst o I { I with returnData := d } :=
  ⟨rfl, rfl, rfl, rfl, rfl, rfl, rfl, rfl, rfl, fun _ => rfl, fun _ _ => rfl, id, rfl, fun _ => rfl, id, [], rfl, by simp⟩

theorem push {o : Nat} {I : Inst} {ob : Obj} (h : I.objs[o]? = some ob) (ev : Ev)
    (hev : ev = .evalAct o ob.task ∨ ev = .postAct o ob.task) : SameInst o I { I with trace := ev :: I.trace } :=
  ⟨rfl, rfl, rfl, rfl, rfl, rfl, rfl, rfl, rfl, fun _ => rfl, fun _ _ => rfl, id, rfl, fun _ => rfl, id, [ev], rfl, by
    intro e he; simp at he; subst he; exact ⟨ob, h, hev⟩⟩

end SameInst

namespace Eng

theorem modI_getElem? (e : Eng) (i j : Nat) (f : Inst → Inst) :
    (e.modI i f).insts[j]? = if i = j then (e.insts[j]?).map f else e.insts[j]? := by
  simp only [modI, List.getElem?_modify]
  split <;> simp

@[simp] theorem modI_length (e : Eng) (i : Nat) (f : Inst → Inst) : (e.modI i f).insts.length = e.insts.length := by
  simp [modI]

@[simp] theorem modI_queue (e : Eng) (i : Nat) (f : Inst → Inst) : (e.modI i f).queue = e.queue := rfl
@[simp] theorem modI_stack (e : Eng) (i : Nat) (f : Inst → Inst) : (e.modI i f).stack = e.stack := rfl
@[simp] theorem modI_cur (e : Eng) (i : Nat) (f : Inst → Inst) : (e.modI i f).cur = e.cur := rfl

theorem modI_self {e : Eng} {i : Nat} {I : Inst} (h : e.insts[i]? = some I) (f : Inst → Inst) :
    (e.modI i f).insts[i]? = some (f I) := by
  rw [modI_getElem?]; simp [h]

theorem modI_ne {e : Eng} {i j : Nat} (h : i ≠ j) (f : Inst → Inst) : (e.modI i f).insts[j]? = e.insts[j]? := by
  rw [modI_getElem?]; simp [h]

theorem obj?_some {e : Eng} {i o : Nat} {ob : Obj} (h : e.obj? i o = some ob) :
    ∃ I, e.insts[i]? = some I ∧ I.objs[o]? = some ob := by
  unfold obj? at h
  split at h
  · simp at h
  · rename_i I hI; exact ⟨I, hI, h⟩

theorem obj?_eq {e : Eng} {i o : Nat} {I : Inst} (h : e.insts[i]? = some I) : e.obj? i o = I.objs[o]? := by
  unfold obj?; rw [h]

/-- The effects an evaluation of object `o` of instance `i` can have; `s` is the subflow the activity starts, if any. -/
inductive Evals (env : Env) (i o : Nat) (s : Option String) : Eng → Eng → Prop
  | refl (e : Eng) : Evals env i o s e e
  | inst (e : Eng) (f : Inst → Inst) (h : ∀ I, e.insts[i]? = some I → SameInst o I (f I)) : Evals env i o s e (e.modI i f)
  | reply (e : Eng) (r : List (AMap String Val × Option Err)) : Evals env i o s e { e with replies := r }
  | sub (e : Eng) (uri : String) (d : Def) (inputs : AMap String Val) (hs : s = some uri)
      (hd : env.defs uri = .ok (some d)) (hi : i < e.insts.length) :
      Evals env i o s e (startInstance env (e.newEmbedded i o uri d) e.insts.length inputs)
  | trans {e f g : Eng} (h1 : Evals env i o s e f) (h2 : Evals env i o s f g) : Evals env i o s e g

variable {env : Env} {i o : Nat} {s : Option String}

theorem Evals.inst' (e : Eng) (f : Inst → Inst) (h : ∀ I, SameInst o I (f I)) : Evals env i o s e (e.modI i f) :=
  .inst e f (fun I _ => h I)

theorem Evals.applyActOut (e : Eng) (a : ActOut) : Evals env i o s e (e.applyActOut i o a) := by
  have h1 : ∀ I : Inst, SameInst o I
      (let I1 := { I with attrs := I.attrs.update a.sets }
       let I2 := match a.outputs with
        | none => I1
        | some m => I1.modO o (fun x => { x with outputs := m })
       match a.ret with
       | none => I2
       | some (d, err) => { I2 with force := true, returnData := d, returnError := err }) := by
    intro I
    have hA : SameInst o I { I with attrs := I.attrs.update a.sets } := SameInst.attrs _ fun h => AMap.nodup_keys_update h _
    have hB : SameInst o I (match a.outputs with
        | none => { I with attrs := I.attrs.update a.sets }
        | some m => Inst.modO { I with attrs := I.attrs.update a.sets } o (fun x => { x with outputs := m })) := by
      cases a.outputs with
      | none => exact hA
      | some m => exact hA.trans (SameInst.modO _ (fun _ => rfl) (fun _ => rfl))
    cases hr : a.ret with
    | none => simpa [hr] using hB
    | some p => exact hB.trans (SameInst.ret _ _)
  unfold Eng.applyActOut
  cases a.reply with
  | none => exact .inst' e _ h1
  | some p =>
    obtain ⟨d, err⟩ := p
    dsimp only
    split
    · rename_i hi0
      subst hi0
      refine .trans (.inst' e _ h1) (.trans (.inst' _ (fun I => { I with returnData := some d }) fun I => SameInst.retData _) (.reply _ _))
    · exact .inst' e _ h1

theorem Evals.startSubFlow (e : Eng) (uri : String) (inputs : AMap String Val) (hs : s = some uri)
    (hi : i < e.insts.length) : Evals env i o s e (e.startSubFlow env i o uri inputs).1 := by
  unfold Eng.startSubFlow
  split
  · exact .refl _
  · exact .refl _
  · rename_i d hd; exact .sub e uri d (subflowInputs d inputs) hs hd hi

end Eng

/-- The subflow started by an activity kind. -/
def ActKind.sub? : ActKind → Option String
  | .subflow u => some u
  | _ => none

namespace Eng

variable {env : Env} {i o : Nat} {s : Option String}

theorem lt_of_obj? {e : Eng} {i o : Nat} {ob : Obj} (h : e.obj? i o = some ob) : i < e.insts.length := by
  obtain ⟨I, hI, _⟩ := obj?_some h
  exact (List.getElem?_eq_some_iff.1 hI).1

theorem Evals.callActivity (e : Eng) (ob : Obj) (td : TaskDef) (h : (e.obj? i o).map (·.task) = some ob.task) :
    Evals env i o td.act.sub? e (e.callActivity env i o ob td).1 := by
  have hpush : Evals env i o td.act.sub? e (e.modI i (fun I => { I with trace := .evalAct o ob.task :: I.trace })) := by
    refine .inst _ _ (fun I hI => ?_)
    rw [obj?_eq hI] at h
    cases ho : I.objs[o]? with
    | none => simp [ho] at h
    | some ob' => simp [ho] at h; exact SameInst.push ho _ (Or.inl (by rw [h]))
  have hlt : i < e.insts.length := by
    cases ho : e.obj? i o with
    | none => simp [ho] at h
    | some ob' => exact lt_of_obj? ho
  unfold Eng.callActivity
  dsimp only
  split
  · rename_i uri huri
    refine hpush.trans ?_
    exact Evals.startSubFlow _ uri _ (by simp [huri, ActKind.sub?]) (by simpa using hlt)
  · have := hpush.trans (Evals.applyActOut (env := env) (s := td.act.sub?) _
      (env.act (e.modI i (fun I => { I with trace := .evalAct o ob.task :: I.trace })) i o))
    split <;> exact this

theorem Evals.accumulate (e : Eng) (t : TaskId) : Evals env i o s e (e.accumulate i o t).1 := by
  unfold Eng.accumulate
  split
  · exact .refl _
  · dsimp only
    split
    · exact .inst' _ _ fun I => SameInst.setValue _ _
    · exact .inst' _ _ fun I => SameInst.setValue _ _
    · exact .refl _

theorem Evals.outputMapper (e : Eng) (n : String) : Evals env i o s e (e.outputMapper env i o n).1 := by
  unfold Eng.outputMapper
  split
  · exact .refl _
  · exact .inst' _ _ fun I => SameInst.attrs _ fun h => AMap.nodup_keys_update h _

theorem Evals.outputInterceptor (e : Eng) (ob : Obj) (td : TaskDef) :
    Evals env i o s e (e.outputInterceptor env i o ob td).1 := by
  unfold Eng.outputInterceptor
  split
  · exact .refl _
  · split
    · exact .refl _
    · split
      · exact .refl _
      · split <;> exact .refl _
      · split
        · exact .refl _
        · exact .inst' _ _ fun I => SameInst.modO _ (fun _ => rfl) (fun _ => rfl)

theorem Evals.inputInterceptor (e : Eng) (ob : Obj) : Evals env i o s e (e.inputInterceptor env i o ob).1 := by
  unfold Eng.inputInterceptor
  split
  · exact .refl _
  · exact .inst' _ _ fun I => SameInst.modO _ (fun _ => rfl) (fun _ => rfl)

theorem Evals.andThen {e : Eng} {r : Eng × Option Err} {k : Eng → Eng × Option Err} (h1 : Evals env i o s e r.1)
    (h2 : ∀ e', Evals env i o s e' (k e').1) : Evals env i o s e (Eng.andThen r k).1 := by
  obtain ⟨e1, r1⟩ := r
  cases r1 with
  | some err => exact h1
  | none => exact h1.trans (h2 e1)

theorem Evals.assertion (e : Eng) (ob : Obj) : Evals env i o s e (e.assertion env i ob).1 := by
  unfold Eng.assertion
  split
  · split <;> exact .refl _
  · exact .refl _

theorem Evals.storeOutputs (e : Eng) (t : TaskId) (td : TaskDef) : Evals env i o s e (e.storeOutputs env i o t td).1 := by
  unfold Eng.storeOutputs
  split
  · refine Evals.andThen (Evals.accumulate _ _) (fun e' => ?_)
    split
    · exact Evals.outputMapper _ _
    · exact .refl _
  · exact Evals.outputMapper _ _

theorem doneOrErr_fst (r : Eng × Option Err) : (doneOrErr r).1 = r.1 := by
  obtain ⟨e, r⟩ := r
  cases r <;> rfl

theorem Evals.afterDone (e : Eng) (ob : Obj) (td : TaskDef) : Evals env i o s e (e.afterDone env i o ob td).1 := by
  unfold Eng.afterDone
  split
  · exact .refl _
  · rw [doneOrErr_fst]
    exact Evals.andThen (Evals.outputInterceptor _ _ _) fun e1 =>
      Evals.andThen (Evals.storeOutputs _ _ _) fun e2 => Evals.assertion _ _

theorem Evals.evalErrorData (e : Eng) (t : TaskId) (err : Err) : Evals env i o s e (e.evalErrorData i t err) := by
  refine .inst' _ _ fun I => ?_
  dsimp only
  refine SameInst.trans ?_ (SameInst.setValue _ _)
  split
  · exact SameInst.refl _ _
  · exact SameInst.setValue _ _

/-! ### Starting an instance -/

/-- The parts of the engine that starting a fresh instance `k` leaves alone. -/
structure StartFrame (k : Nat) (e e' : Eng) : Prop where
  id : e'.id = e.id
  len : e'.insts.length = e.insts.length
  stepID : e'.stepID = e.stepID
  subflowCtr : e'.subflowCtr = e.subflowCtr
  subflows : e'.subflows = e.subflows
  cur : e'.cur = e.cur
  stack : e'.stack = e.stack
  replies : e'.replies = e.replies
  others : ∀ j : Nat, j ≠ k → e'.insts[j]? = e.insts[j]?

theorem StartFrame.refl (k : Nat) (e : Eng) : StartFrame k e e :=
  ⟨rfl, rfl, rfl, rfl, rfl, rfl, rfl, rfl, fun _ _ => rfl⟩

theorem StartFrame.trans {k : Nat} {e f g : Eng} (h : StartFrame k e f) (h' : StartFrame k f g) : StartFrame k e g :=
  ⟨h'.id.trans h.id, h'.len.trans h.len, h'.stepID.trans h.stepID, h'.subflowCtr.trans h.subflowCtr,
    h'.subflows.trans h.subflows, h'.cur.trans h.cur, h'.stack.trans h.stack, h'.replies.trans h.replies,
    fun j hj => (h'.others j hj).trans (h.others j hj)⟩

theorem StartFrame.modI (k : Nat) (e : Eng) (f : Inst → Inst) : StartFrame k e (e.modI k f) :=
  ⟨rfl, by simp, rfl, rfl, rfl, rfl, rfl, rfl, fun _ hj => modI_ne (Ne.symm hj) f⟩

theorem StartFrame.schedule (k o : Nat) (e : Eng) : StartFrame k e (e.schedule k o) :=
  ⟨rfl, rfl, rfl, rfl, rfl, rfl, rfl, rfl, fun _ _ => rfl⟩

theorem StartFrame.enterStart (k : Nat) (es : List TaskEntry) (e : Eng) : StartFrame k e (enterStart env e k es) := by
  induction es generalizing e with
  | nil => exact .refl _ _
  | cons x xs ih =>
    simp only [Eng.enterStart]
    split
    · exact .refl _ _
    · rename_i I hI
      split
      · split
        · exact ((StartFrame.modI k e _).trans (.schedule _ _ _)).trans (ih _)
        · exact .modI _ _ _
      · exact (StartFrame.modI k e _).trans (ih _)

theorem StartFrame.startInstance (k : Nat) (e : Eng) (ins : AMap String Val) :
    StartFrame k e (startInstance env e k ins) := by
  unfold Eng.startInstance
  split
  · exact .refl _ _
  · exact (StartFrame.modI k e _).trans (.enterStart _ _ _)

theorem newEmbedded_getElem? (e : Eng) (i o : Nat) (uri : String) (d : Def) {j : Nat} (hj : j < e.insts.length) :
    (e.newEmbedded i o uri d).insts[j]? = e.insts[j]? := by
  simp only [newEmbedded]
  exact List.getElem?_append_left hj

@[simp] theorem newEmbedded_length (e : Eng) (i o : Nat) (uri : String) (d : Def) :
    (e.newEmbedded i o uri d).insts.length = e.insts.length + 1 := by
  simp [newEmbedded]

theorem newEmbedded_new (e : Eng) (i o : Nat) (uri : String) (d : Def) :
    (e.newEmbedded i o uri d).insts[e.insts.length]? =
      some { defn := d, uri := uri, subflowId := e.subflowCtr + 1, host := some (i, o) } := by
  simp [newEmbedded]

/-- Every instance that existed before keeps its state, except for what `SameInst` permits for the evaluating one. -/
theorem Evals.obj {e e' : Eng} (h : Evals env i o s e e') :
    e.insts.length ≤ e'.insts.length ∧
    (∀ I, e.insts[i]? = some I → ∃ I', e'.insts[i]? = some I' ∧ SameInst o I I') ∧
    (∀ j : Nat, j ≠ i → j < e.insts.length → e'.insts[j]? = e.insts[j]?) ∧
    e'.stack = e.stack ∧ e'.cur = e.cur ∧ e'.stepID = e.stepID ∧ e'.id = e.id := by
  induction h with
  | refl e => exact ⟨Nat.le_refl _, fun I hI => ⟨I, hI, SameInst.refl _ _⟩, fun _ _ _ => rfl, rfl, rfl, rfl, rfl⟩
  | inst e f hf =>
    refine ⟨by simp, fun I hI => ⟨f I, modI_self hI f, hf I hI⟩, fun j hj _ => modI_ne (Ne.symm hj) f, rfl, rfl, rfl, rfl⟩
  | reply e r => exact ⟨Nat.le_refl _, fun I hI => ⟨I, hI, SameInst.refl _ _⟩, fun _ _ _ => rfl, rfl, rfl, rfl, rfl⟩
  | sub e uri d inputs hs hd hi =>
    have hf := StartFrame.startInstance (env := env) e.insts.length (e.newEmbedded i o uri d) inputs
    refine ⟨by rw [hf.len]; simp, fun I hI => ⟨I, ?_, SameInst.refl _ _⟩, fun j _ hj => ?_, hf.stack, hf.cur, hf.stepID, hf.id⟩
    · rw [hf.others i (Nat.ne_of_lt hi), newEmbedded_getElem? _ _ _ _ _ hi, hI]
    · rw [hf.others j (Nat.ne_of_lt hj), newEmbedded_getElem? _ _ _ _ _ hj]
  | trans h1 h2 ih1 ih2 =>
    obtain ⟨a1, a2, a3, a4, a5, a6, a7⟩ := ih1
    obtain ⟨b1, b2, b3, b4, b5, b6, b7⟩ := ih2
    refine ⟨Nat.le_trans a1 b1, fun I hI => ?_, fun j hj hlt => ?_, b4.trans a4, b5.trans a5, b6.trans a6, b7.trans a7⟩
    · obtain ⟨J, hJ, hIJ⟩ := a2 I hI
      obtain ⟨K, hK, hJK⟩ := b2 J hJ
      exact ⟨K, hK, hIJ.trans hJK⟩
    · rw [b3 j hj (Nat.lt_of_lt_of_le hlt a1), a3 j hj hlt]

theorem Evals.obj_task {e e' : Eng} (h : Evals env i o s e e') {ob : Obj} (ho : e.obj? i o = some ob) :
    ∃ ob', e'.obj? i o = some ob' ∧ ob'.task = ob.task ∧ ob'.status = ob.status := by
  obtain ⟨I, hI, hob⟩ := obj?_some ho
  obtain ⟨I', hI', hs⟩ := h.obj.2.1 I hI
  rw [obj?_eq hI']
  exact hs.task_eq' hob

theorem Evals.taskDef? {e e' : Eng} (h : Evals env i o s e e') {I : Inst} (hI : e.insts[i]? = some I) (t : TaskRef) :
    e'.taskDef? i t = e.taskDef? i t := by
  obtain ⟨I', hI', hs⟩ := h.obj.2.1 I hI
  unfold Eng.taskDef?
  rw [hI, hI']
  simp [hs.defn]

/-- The subflow of the task of an object. -/
def subOf (e : Eng) (i o : Nat) : Option String :=
  match e.obj? i o with
  | none => none
  | some ob => match e.taskDef? i ob.task with
    | none => none
    | some td => td.act.sub?

theorem Evals.subOf {e e' : Eng} (h : Evals env i o s e e') : e.subOf i o = none ∨ e'.subOf i o = e.subOf i o := by
  unfold Eng.subOf
  cases ho : e.obj? i o with
  | none => left; rfl
  | some ob =>
    obtain ⟨I, hI, _⟩ := obj?_some ho
    obtain ⟨ob', ho', ht, _⟩ := h.obj_task ho
    right
    simp only [ho', ht, h.taskDef? hI]

theorem Evals.applyInputMapper (e : Eng) (n : String) : Evals env i o s e (e.applyInputMapper env i o n).1 := by
  unfold Eng.applyInputMapper
  split
  · exact .refl _
  · exact .refl _
  · exact .inst' _ _ fun I => SameInst.modO _ (fun _ => rfl) (fun _ => rfl)

theorem Evals.evalWith (p : Eng × Bool) (ob : Obj) (td : TaskDef) (h : (p.1.obj? i o).map (·.task) = some ob.task) :
    Evals env i o td.act.sub? p.1 (evalWith env p i o ob td).1 := by
  unfold Eng.evalWith
  split
  · exact Evals.afterDone _ _ _
  · split
    · exact .refl _
    · split
      · exact Evals.afterDone _ _ _
      · have hc := Evals.callActivity (env := env) p.1 ob td h
        split
        · rename_i hx
          rw [hx] at hc
          refine hc.trans ?_
          dsimp only
          split
          · exact .refl _
          · exact Evals.evalErrorData _ _ _
        · rename_i hx
          rw [hx] at hc
          exact hc.trans (Evals.afterDone _ _ _)
        · rename_i hx
          rw [hx] at hc
          exact hc

theorem Evals.evalOnce (e : Eng) : Evals env i o (e.subOf i o) e (e.evalOnce env i o).1 := by
  unfold Eng.evalOnce
  cases ho : e.obj? i o with
  | none => exact .refl _
  | some ob =>
    dsimp only
    cases ht : e.taskDef? i ob.task with
    | none => exact .refl _
    | some td =>
      dsimp only
      have hsub : e.subOf i o = td.act.sub? := by simp [Eng.subOf, ho, ht]
      rw [hsub]
      have h1 := Evals.applyInputMapper (env := env) (i := i) (o := o) (s := td.act.sub?) e td.name
      split
      · rename_i hx; rw [hx] at h1; exact h1
      · rename_i e1 hx
        rw [hx] at h1
        have h2 := h1.trans (Evals.inputInterceptor (env := env) (i := i) (o := o) (s := td.act.sub?) e1 ob)
        refine h2.trans (Evals.evalWith _ ob td ?_)
        obtain ⟨ob', ho', ht', _⟩ := h2.obj_task ho
        simp [ho', ht']

theorem Evals.mono {e e' : Eng} (h : Evals env i o none e e') : Evals env i o s e e' := by
  induction h with
  | refl e => exact .refl _
  | inst e f hf => exact .inst e f hf
  | reply e r => exact .reply _ _
  | sub e uri d inputs hs hd hi => cases hs
  | trans _ _ ih1 ih2 => exact ih1.trans ih2

theorem Evals.subOf_eq {e0 e : Eng} {ob : Obj} (ho : e0.obj? i o = some ob) (h : Evals env i o s e0 e) :
    e.subOf i o = e0.subOf i o := by
  obtain ⟨I, hI, _⟩ := obj?_some ho
  obtain ⟨ob', ho', ht, _⟩ := h.obj_task ho
  simp only [Eng.subOf, ho, ho', ht, h.taskDef? hI]

theorem Evals.evalOnce' {e0 e : Eng} {ob : Obj} (ho : e0.obj? i o = some ob)
    (h : Evals env i o (e0.subOf i o) e0 e) : Evals env i o (e0.subOf i o) e0 (e.evalOnce env i o).1 := by
  have h2 := Evals.evalOnce (env := env) (i := i) (o := o) e
  rw [h.subOf_eq ho] at h2
  exact h.trans h2

theorem Evals.setRetry (e : Eng) (c : Int) : Evals env i o s e (e.setRetry i o c) :=
  .inst' _ _ fun _ => SameInst.modO _ (fun _ => rfl) (fun _ => rfl)

theorem Evals.getRetry (e : Eng) : Evals env i o s e (e.getRetry env i o).1 := by
  unfold Eng.getRetry
  split
  · exact .refl _
  · split
    · exact .refl _
    · exact Evals.setRetry _ _

theorem Evals.retryFrom {e0 : Eng} {ob : Obj} (ho : e0.obj? i o = some ob) (n : Nat) {e : Eng}
    (h : Evals env i o (e0.subOf i o) e0 e) : Evals env i o (e0.subOf i o) e0 (retryFrom env n e i o).1 := by
  induction n generalizing e with
  | zero => exact Evals.evalOnce' ho (h.trans (Evals.setRetry _ _))
  | succ n ih =>
    have h2 := Evals.evalOnce' ho (h.trans (Evals.setRetry e (n + 1)))
    simp only [Eng.retryFrom]
    split
    · rename_i e1 err hx
      rw [hx] at h2
      split
      · exact ih h2
      · exact h2
    · exact h2

theorem Evals.evalActivity {e0 : Eng} {ob : Obj} (ho : e0.obj? i o = some ob) {e : Eng}
    (h : Evals env i o (e0.subOf i o) e0 e) : Evals env i o (e0.subOf i o) e0 (e.evalActivity env i o).1 := by
  have h2 := Evals.evalOnce' ho h
  unfold Eng.evalActivity
  split
  · rename_i hx; rw [hx] at h2; exact h2
  · rename_i e1 err hx
    rw [hx] at h2
    split
    · have h3 := h2.trans (Evals.getRetry e1)
      split
      · rename_i hy; rw [hy] at h3; exact h3
      · rename_i hy
        rw [hy] at h3
        split
        · exact Evals.retryFrom ho _ h3
        · exact h3
    · exact h2

theorem Evals.callPost (e : Eng) (td : TaskDef) : Evals env i o s e (e.callPost env i o td).1 := by
  unfold Eng.callPost
  split
  · dsimp only
    split <;> exact Evals.applyActOut _ _
  · exact .refl _

theorem Evals.postStore (e : Eng) (ob : Obj) (td : TaskDef) : Evals env i o s e (e.postStore env i o ob td).1 := by
  have h : Evals env i o s e (Eng.andThen (e.outputInterceptor env i o ob td) (fun e1 =>
      Eng.andThen (if td.accumulates then e1.accumulate i o ob.task.id else e1.outputMapper env i o td.name)
        (fun e2 => e2.assertion env i ob))).1 := by
    refine Evals.andThen (Evals.outputInterceptor _ _ _) fun e1 => Evals.andThen ?_ fun e2 => Evals.assertion _ _
    split
    · exact Evals.accumulate _ _
    · exact Evals.outputMapper _ _
  unfold Eng.postStore
  split <;> rename_i hx <;> rw [hx] at h <;> exact h

theorem Evals.postOnce (e : Eng) : Evals env i o s e (e.postOnce env i o).1 := by
  unfold Eng.postOnce
  cases ho : e.obj? i o with
  | none => exact .refl _
  | some ob =>
    dsimp only
    cases ht : e.taskDef? i ob.task with
    | none => exact .refl _
    | some td =>
      dsimp only
      obtain ⟨I, hI, hob⟩ := obj?_some ho
      have h1 : Evals env i o s e (e.modI i (fun I => { I with trace := .postAct o ob.task :: I.trace })) := by
        refine .inst _ _ (fun J hJ => ?_)
        rw [hI] at hJ; cases hJ
        exact SameInst.push hob _ (Or.inr rfl)
      have h2 := h1.trans (Evals.callPost (env := env) (i := i) (o := o) (s := s) _ td)
      split
      · rename_i hx; rw [hx] at h2; exact h2
      · rename_i e1 done hx
        rw [hx] at h2
        split
        · exact h2
        · split
          · exact h2.trans (Evals.postStore _ _ _)
          · exact h2

theorem Evals.dwInit (e : Eng) : Evals env i o s e (e.dwInit i o) :=
  .inst' _ _ fun _ => SameInst.modO _ (fun _ => rfl) (fun _ => rfl)

theorem Evals.dwUpdate (e : Eng) : Evals env i o s e (e.dwUpdate i o) :=
  .inst' _ _ fun _ => SameInst.modO _ (fun _ => rfl) (fun _ => rfl)

/-- State and result after `Eval` of a behavior, relative to the state `e'` before a status was set. -/
def EvalEff (e' : Eng) (i o : Nat) (e1 : Eng) : EvalOut → Prop
  | .res .done => e1 = e'
  | .res .again => e1 = e'
  | .res .wait => e1 = e' ∨ e1 = e'.setStatus i o .waiting
  | .res .fail => False
  | .res .skip => False
  | .err _ => e1 = e' ∨ e1 = e'.setStatus i o .failed
  | .panic _ => e1 = e'

/-- State and result after `PostEval` of a behavior. -/
def PostEff (e' : Eng) (i o : Nat) (e1 : Eng) : EvalOut → Prop
  | .res .done => e1 = e' ∨ e1 = e'.setStatus i o .done
  | .res .again => e1 = e'.setStatus i o .done
  | .res .wait => e1 = e'
  | .res .fail => False
  | .res .skip => False
  | .err _ => e1 = e' ∨ e1 = e'.setStatus i o .failed ∨ e1 = e'.setStatus i o .done
  | .panic _ => e1 = e'.setStatus i o .done

theorem dwUpdate_setStatus (e : Eng) (i o : Nat) (st : TaskStatus) :
    (e.setStatus i o st).dwUpdate i o = (e.dwUpdate i o).setStatus i o st := by
  unfold Eng.dwUpdate Eng.setStatus Eng.modI
  simp only [List.modify_modify_eq]
  congr 2
  funext I
  simp only [Function.comp, Inst.setTaskStatus, Inst.modO, List.getElem?_modify_eq]
  cases h : I.objs[o]? with
  | none => simp
  | some ob =>
    simp only [Option.map_some, Functor.map]
    simp only [List.modify_modify_eq]
    congr 2

theorem evalKind_spec {e : Eng} {ob : Obj} (ho : e.obj? i o = some ob) (td : TaskDef) :
    ∃ e', Evals env i o (e.subOf i o) e e' ∧ EvalEff e' i o (e.evalKind env i o td).1 (e.evalKind env i o td).2 := by
  unfold Eng.evalKind
  split
  · have h := Evals.evalActivity (env := env) ho (.refl e)
    refine ⟨_, h, ?_⟩
    unfold Eng.evalBasic
    split <;> rename_i hx <;> rw [hx] <;> simp [EvalEff]
  · unfold Eng.evalIter
    split
    · exact ⟨e, .refl _, by simp [EvalEff]⟩
    · exact ⟨e, .refl _, by simp [EvalEff]⟩
    · rename_i it _
      dsimp only
      split
      · exact ⟨e.modI i (fun I => I.modO o (fun x =>
          { x with iter := some it.next.1, iteration := some (x.iteration.getD (.null, .null, 0)) })),
          .inst' _ _ fun _ => SameInst.modO _ (fun _ => rfl) (fun _ => rfl), by simp [EvalEff]⟩
      · split
        · exact ⟨e, .refl _, by simp [EvalEff]⟩
        · rename_i v hv
          have h := Evals.evalActivity (env := env) ho (e := e.modI i (fun I => I.modO o (fun x =>
            { x with iter := some it.next.1, iteration := some (it.next.1.key, v, it.next.1.current) })))
            (.inst' _ _ fun _ => SameInst.modO _ (fun _ => rfl) (fun _ => rfl))
          refine ⟨_, h, ?_⟩
          split <;> rename_i hx <;> rw [hx] <;> simp [EvalEff]
  · unfold Eng.evalDoWhile
    have h := Evals.evalActivity (env := env) ho (Evals.dwInit e)
    split
    · rename_i hx; rw [hx] at h; exact ⟨_, h, by simp [EvalEff]⟩
    · rename_i hx; rw [hx] at h; exact ⟨_, h, by simp [EvalEff]⟩
    · rename_i e1 hx
      rw [hx] at h
      refine ⟨_, h.trans (Evals.dwUpdate e1), ?_⟩
      unfold Eng.dwCheck
      split
      · split <;> simp [EvalEff]
      · simp [EvalEff]

theorem postKind_spec {e : Eng} {ob : Obj} (ho : e.obj? i o = some ob) (td : TaskDef) :
    ∃ e', Evals env i o (e.subOf i o) e e' ∧ PostEff e' i o (e.postKind env i o td).1 (e.postKind env i o td).2 := by
  unfold Eng.postKind
  split
  · unfold Eng.postBasic
    have h := Evals.postOnce (env := env) (i := i) (o := o) (s := e.subOf i o) e
    split
    · rename_i hx; rw [hx] at h; exact ⟨_, h, by simp [PostEff]⟩
    · rename_i e1 err hx
      rw [hx] at h
      split
      · have h3 := h.trans (Evals.getRetry e1)
        split
        · rename_i hy; rw [hy] at h3; exact ⟨_, h3, by simp [PostEff]⟩
        · rename_i e2 c hy
          rw [hy] at h3
          split
          · have h4 := Evals.retryFrom (env := env) ho (c.toNat - 1) h3
            split <;> rename_i hz <;> rw [hz] at h4 <;> exact ⟨_, h4, by simp [PostEff]⟩
          · exact ⟨_, h3, by simp [PostEff]⟩
      · exact ⟨_, h, by simp [PostEff]⟩
  · unfold Eng.postIter
    have h := Evals.postOnce (env := env) (i := i) (o := o) (s := e.subOf i o) e
    split
    · rename_i hx; rw [hx] at h; exact ⟨_, h, by simp [PostEff]⟩
    · rename_i e1 _ hx
      rw [hx] at h
      refine ⟨_, h, ?_⟩
      dsimp only
      split
      · simp [PostEff]
      · dsimp only; split <;> simp [PostEff]
  · unfold Eng.postDoWhile
    have h := (Evals.dwInit e).trans (Evals.postOnce (env := env) (i := i) (o := o) (s := e.subOf i o) (e.dwInit i o))
    split
    · rename_i hx; rw [hx] at h; exact ⟨_, h, by simp [PostEff]⟩
    · rename_i e1 _ hx
      rw [hx] at h
      refine ⟨_, h.trans (Evals.dwUpdate e1), ?_⟩
      unfold Eng.dwCheck
      rw [dwUpdate_setStatus]
      split
      · split <;> simp [PostEff]
      · simp [PostEff]

end Eng
end Flow
