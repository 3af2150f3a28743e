import Verif.Proofs.Step

/-
A step as a sequence of elementary operations, and the resulting induction principle for properties of single flow
instances.
-/

namespace Flow
open Spec

namespace Eng

variable {env : Env} {q : Option Nat}

/-- Elementary operations of the engine while instance `i` is being executed, and their sequences; `q` is the task object
that is evaluated, if any. -/
inductive Ops (env : Env) (i : Nat) (q : Option Nat) : Eng → Eng → Prop
  | refl (e : Eng) : Ops env i q e e
  | trans {e f g : Eng} (h1 : Ops env i q e f) (h2 : Ops env i q f g) : Ops env i q e g
  | ctl {e e' : Eng} (h : e'.insts = e.insts) : Ops env i q e e'
  | calm {e : Eng} (j : Nat) (f : Inst → Inst) (h : ∀ I, e.insts[j]? = some I → Calm I (f I)) : Ops env i q e (e.modI j f)
  | attrs {e : Eng} (a : Inst → AMap String Val) (h : ∀ I : Inst, I.attrs.keys.Nodup → (a I).keys.Nodup) : Ops env i q e (e.modI i (fun I => { I with attrs := a I }))
  | same {e : Eng} (o : Nat) (f : Inst → Inst) (hq : q = some o) (h : ∀ I, e.insts[i]? = some I → SameInst o I (f I)) : Ops env i q e (e.modI i f)
  | sub {e : Eng} (o : Nat) (uri : String) (d : Def) (inputs : AMap String Val) (hd : env.defs uri = .ok (some d)) :
      Ops env i q e (startInstance env (e.newEmbedded i o uri d) e.insts.length inputs)
  | completed {e : Eng} : Ops env i q e (e.modI i (fun J => J.setFlowStatus .completed))
  | failed {e : Eng} (h : ∀ I, e.insts[i]? = some I → I.handling = true) : Ops env i q e (e.modI i (fun J => J.setFlowStatus .failed))
  | startEH {e : Eng} (h : ∀ I, e.insts[i]? = some I → I.handling = false ∧ I.defn.eh ≠ none) :
      Ops env i q e (e.modI i (fun J => { J with handling := true, trace := .ehStart :: J.trace }))
  | unhandled {e : Eng} (h : ∀ I, e.insts[i]? = some I → I.handling = false ∧ I.defn.eh = none) :
      Ops env i q e (e.modI i (fun J => { J with handling := true }.setFlowStatus .failed))
  | retError {e : Eng} (err : Err) (h : ∀ I, e.insts[i]? = some I → I.status = .failed) : Ops env i q e (e.modI i (fun J => { J with returnError := some err }))

/-- Clearing the task table is calm. -/
theorem Calm.clear (I : Inst) : Calm I I.clearTasks :=
  ⟨rfl, rfl, rfl, rfl, rfl, rfl, rfl, rfl, rfl, rfl, rfl, Flow.Calm.keep rfl⟩

theorem Ops.modO {i : Nat} {e : Eng} (j o : Nat) (f : Obj → Obj) (hf : ∀ x, (f x).task = x.task ∧ (f x).work = x.work) :
    Ops env i q e (e.modI j (fun I => I.modO o f)) :=
  .calm j (fun I => I.modO o f) fun _ _ => ⟨rfl, rfl, rfl, rfl, rfl, rfl, rfl, rfl, rfl, rfl, rfl, Flow.Calm.keep_modify hf rfl⟩

theorem Evals.ops {i o : Nat} {s : Option String} {e e' : Eng} (h : Evals env i o s e e') : Ops env i (some o) e e' := by
  induction h with
  | refl e => exact .refl e
  | inst e f h => exact .same o f rfl h
  | reply e r => exact .ctl rfl
  | sub e uri d inputs _ hd _ => exact .sub _ _ _ _ hd
  | trans _ _ ih1 ih2 => exact .trans ih1 ih2

theorem Ops.setStatus (e : Eng) (i o : Nat) (st : TaskStatus) : Ops env i q e (e.setStatus i o st) :=
  .calm i (fun I => I.setTaskStatus o st) fun I _ => Calm.setTaskStatus I o st

theorem Ops.complete (e : Eng) (i : Nat) : Ops env i q e (e.complete i) := by
  have h1 : Ops env i q e (e.modI i (fun J => J.setFlowStatus .completed)) := .completed
  unfold Eng.complete
  split
  · exact .refl _
  · dsimp only
    split
    · exact h1
    · split
      · exact h1.trans (.ctl rfl)
      · rename_i I _ _ _ hi ho _
        exact (h1.trans (Ops.modO hi ho (fun x => { x with outputs := I.returnData, returnError := none })
          fun _ => ⟨rfl, rfl⟩)).trans (.ctl rfl)

theorem Ops.failHost (e : Eng) (i : Nat) (err : Err) : Ops env i q e (e.failHost i err) := by
  unfold Eng.failHost
  split
  · exact .refl _
  · split
    · exact .refl _
    · rename_i hi ho _
      exact (Ops.modO hi ho (fun x => { x with returnError := some err }) fun _ => ⟨rfl, rfl⟩).trans (.ctl rfl)

theorem Ops.appendErrorData (e : Eng) (i : Nat) (t : TaskId) (err : Err) : Ops env i q e (e.appendErrorData i t err) :=
  .attrs (fun I => (I.attrs.set "_E" (errorObj t err)).set ("_E." ++ t) (errorObj t err))
    fun _ h => AMap.nodup_keys_set (AMap.nodup_keys_set h _ _) _ _

/-- The state in which the error handler of instance `i` is entered. -/
theorem globalError_comm (e : Eng) (i : Nat) :
    ((e.modI i (fun J => { J with handling := true })).modI 0 (fun J => J.clearTasks)).modI i
            (fun J => { J with trace := .ehStart :: J.trace }) =
            (e.modI 0 (fun J => J.clearTasks)).modI i
              (fun J => { J with handling := true, trace := .ehStart :: J.trace }) := by
  unfold Eng.modI
  congr 1
  apply List.ext_getElem?
  intro j
  simp only [List.getElem?_modify]
  by_cases h1 : i = j <;> by_cases h2 : 0 = j <;> simp [h1, h2] <;> cases e.insts[j]? <;> simp [Inst.clearTasks]

theorem modI_modI (e : Eng) (i : Nat) (f g : Inst → Inst) : (e.modI i f).modI i g = e.modI i (fun I => g (f I)) := by
  unfold Eng.modI
  congr 1
  apply List.ext_getElem?
  intro j
  simp only [List.getElem?_modify]
  split
  · cases e.insts[j]? <;> simp
  · simp

theorem Ops.globalError (e : Eng) (i : Nat) (err : Err) : Ops env i q e (e.globalError i err) := by
  unfold Eng.globalError
  split
  · exact .refl _
  · rename_i I hI
    split
    · rename_i hh; exact .failed (fun J hJ => by rw [hI] at hJ; cases hJ; exact hh)
    · rename_i hh
      dsimp only
      split
      · rename_i g hg
        rw [globalError_comm]
        refine ((Ops.calm 0 _ fun J _ => Calm.clear J).trans (.startEH fun J hJ => ?_)).trans (.ctl rfl)
        rw [modI_getElem?, hI] at hJ
        simp only [Bool.not_eq_true] at hh
        split at hJ <;> simp at hJ <;> subst hJ <;> simp [hh, hg, Inst.clearTasks]
      · rename_i hg
        have h1 : Ops env i q e ((e.modI i (fun J => { J with handling := true })).modI i (fun J => J.setFlowStatus .failed)) := by
          rw [modI_modI]
          refine .unhandled fun J hJ => ?_
          rw [hI] at hJ; cases hJ
          exact ⟨by simpa using hh, hg⟩
        split
        · rename_i h0; subst h0
          refine h1.trans (.retError _ fun J hJ => ?_)
          rw [modI_modI, modI_self hI] at hJ; cases hJ; rfl
        · exact h1.trans (Ops.failHost _ _ _)

theorem Ops.taskError (e : Eng) (i o : Nat) (t : TaskRef) (err : Err) : Ops env i q e (e.taskError i o t err) := by
  unfold Eng.taskError
  split
  · exact .refl _
  · rename_i I hI
    have hc := Calm.errorTask I o t
    split
    · rename_i I1 es h1
      rw [h1] at hc
      refine Ops.trans (f := (e.modI i (fun _ => I1)).modI i (fun J => J.setValue ("_E." ++ t.id) (errorObj t.id err)))
        (Ops.trans (.calm i (fun _ => I1) fun J hJ => by rw [hI] at hJ; cases hJ; exact hc)
          (.attrs (fun J => J.attrs.set ("_E." ++ t.id) (errorObj t.id err)) fun _ h => AMap.nodup_keys_set h _ _)) (.ctl ?_)
      rw [modI_modI]
    · rename_i I1 h1
      rw [h1] at hc
      have h2 : Ops env i q e (e.modI i (fun _ => I1)) := .calm i (fun _ => I1) fun J hJ => by rw [hI] at hJ; cases hJ; exact hc
      dsimp only
      split
      · rename_i hh
        have h3 : ∀ J, (e.modI i (fun _ => I1)).insts[i]? = some J → J.handling = true := by
          intro J hJ
          rw [modI_self hI] at hJ; cases hJ
          rw [hc.handling]; exact hh
        split
        · exact (h2.trans (.failed h3)).trans (Ops.appendErrorData _ _ _ _)
        · exact (h2.trans (.failed h3)).trans (Ops.failHost _ _ _)
      · exact (h2.trans (Ops.appendErrorData _ _ _ _)).trans (Ops.globalError _ _ _)

theorem Ops.finishTask (e : Eng) (i : Nat) (t : TaskRef) (n : Bool) (es : List TaskEntry) (rest : List Frame) :
    Ops env i q e (e.finishTask i t n es rest) := by
  unfold Eng.finishTask
  split
  · exact .refl _
  · split
    · exact (Ops.complete e i).trans (.ctl rfl)
    · exact .ctl rfl

theorem Ops.taskDone (e : Eng) (i o : Nat) (t : TaskRef) : Ops env i q e (e.taskDone env i o t) := by
  unfold Eng.taskDone
  split
  · exact .refl _
  · rename_i I hI
    have hc := Calm.doneTask env.prio (env.link e i) I o t
    split
    · rename_i I1 m h1
      rw [h1] at hc
      exact ((Ops.calm i (fun _ => I1) fun J hJ => by rw [hI] at hJ; cases hJ; exact hc).trans
        (Ops.appendErrorData _ _ _ _)).trans (Ops.globalError _ _ _)
    · rename_i I1 es h1
      rw [h1] at hc
      exact (Ops.calm i (fun _ => I1) fun J hJ => by rw [hI] at hJ; cases hJ; exact hc).trans (Ops.finishTask _ _ _ _ _ _)

theorem Ops.taskSkipped (e : Eng) (i o : Nat) (rest : List Frame) : Ops env i q e (e.taskSkipped i o rest) := by
  unfold Eng.taskSkipped
  split
  · exact .refl _
  · rename_i I hI
    split
    · exact .ctl rfl
    · rename_i ob hob
      exact (Ops.calm i _ fun J hJ => by rw [hI] at hJ; cases hJ; exact Calm.skipTask _ _ _).trans (Ops.finishTask _ _ _ _ _ _)

theorem Ops.handleResult (e : Eng) (i o : Nat) (t : TaskRef) (name : String) (r : EvalOut) :
    Ops env i q e (e.handleResult env i o t name r) := by
  unfold Eng.handleResult
  split
  · exact Ops.taskError _ _ _ _ _
  · exact Ops.taskDone _ _ _ _
  · exact Ops.taskDone _ _ _ _
  · exact Ops.setStatus _ _ _ _
  · exact Ops.setStatus _ _ _ _
  · exact .ctl rfl
  · split
    · exact .refl _
    · split
      · exact .refl _
      · exact (Ops.appendErrorData _ _ _ _).trans (Ops.globalError _ _ _)

theorem outcome_ops {e : Eng} {i o : Nat} {e' : Eng} {r : EvalOut} (h : outcome env e i o = some (e', r)) : Ops env i (some o) e e' := by
  obtain ⟨e1, hev, h1⟩ := outcome_evals h
  rcases h1 with h1 | ⟨st, h1⟩
  · subst h1; exact hev.ops
  · subst h1; exact hev.ops.trans (Ops.setStatus _ _ _ _)

theorem Ops.exec (e : Eng) (i o : Nat) : Ops env i (some o) e (e.exec env i o) := by
  cases h : outcome env e i o with
  | none => rw [exec_none h]; exact .refl _
  | some p =>
    obtain ⟨e', r⟩ := p
    cases ho : e.obj? i o with
    | none => unfold Spec.outcome at h; rw [ho] at h; cases h
    | some ob =>
      obtain ⟨td, _, h2⟩ := exec_outcome ho h
      rw [h2]
      exact (outcome_ops h).trans (Ops.handleResult _ _ _ _ _ _)

theorem Ops.enterEntry (e : Eng) (x : TaskEntry) (xs : List TaskEntry) (rest : List Frame) :
    Ops env e.cur q e (e.enterEntry env x xs rest) := by
  unfold Eng.enterEntry
  split
  · exact .ctl rfl
  · rename_i I hI
    have hm : Ops env e.cur q e (e.modI e.cur (fun _ => (I.enterTask x.task).1)) :=
      .calm _ _ fun J hJ => by rw [hI] at hJ; cases hJ; exact Calm.enterTask _ _
    dsimp only
    split
    · exact hm.trans (.ctl rfl)
    · split
      · exact hm.trans (.ctl rfl)
      · exact hm.trans (.ctl rfl)
    · exact hm.trans (Ops.taskSkipped _ _ _ _)

theorem Ops.item {e : Eng} {w : WorkItem} (h : next env e = some w) : Ops env w.inst (some w.obj) e (e.step env) := by
  rw [step_next h]
  exact Ops.trans (Ops.ctl (e' := afterPop env e w) rfl) (Ops.exec (afterPop env e w) _ _)

theorem Ops.inner {e : Eng} (h : e.stack ≠ []) : Ops env e.cur q e (e.step env) := by
  unfold Eng.step
  split
  · rename_i hs; exact absurd hs h
  · exact .ctl rfl
  · exact Ops.enterEntry _ _ _ _
  · exact (Ops.calm _ _ fun I _ => Calm.release I _).trans (.ctl rfl)

theorem Ops.step {e : Eng} (hl : 0 < e.insts.length) : Ops env (actor env e) ((next env e).map (·.obj)) e (e.step env) := by
  unfold Spec.actor
  cases h : Spec.next env e with
  | some w => exact Ops.item h
  | none =>
    by_cases hst : e.stack = []
    · rw [step_idle hst h hl]; exact .ctl rfl
    · exact Ops.inner hst

/-- Instances other than the executed one stay calm. -/
theorem Ops.others {i : Nat} {e e' : Eng} (h : Ops env i q e e') : ∀ (j : Nat) (I : Inst), j ≠ i → e.insts[j]? = some I →
    ∃ I', e'.insts[j]? = some I' ∧ Calm I I' := by
  have hmod : ∀ (e : Eng) (f : Inst → Inst) (j : Nat) (I : Inst), j ≠ i → e.insts[j]? = some I →
      ∃ I', (e.modI i f).insts[j]? = some I' ∧ Calm I I' := by
    intro e f j I hj hI
    exact ⟨I, by rw [modI_ne (Ne.symm hj)]; exact hI, Calm.refl I⟩
  induction h with
  | refl e => exact fun j I _ hI => ⟨I, hI, Calm.refl I⟩
  | trans _ _ ih1 ih2 =>
    intro j I hj hI
    obtain ⟨I1, h1, h2⟩ := ih1 j I hj hI
    obtain ⟨I2, h3, h4⟩ := ih2 j I1 hj h1
    exact ⟨I2, h3, h2.trans h4⟩
  | ctl h => exact fun j I _ hI => ⟨I, by rw [h]; exact hI, Calm.refl I⟩
  | calm k f h =>
    intro j I hj hI
    rw [modI_getElem?]
    split
    · rename_i hk; subst hk
      exact ⟨f I, by rw [hI]; rfl, h I hI⟩
    · exact ⟨I, hI, Calm.refl I⟩
  | attrs a _ => exact hmod _ _
  | same o f hq h => exact hmod _ _
  | @sub e o uri d inputs =>
    intro j I hj hI
    have hjl : j < e.insts.length := (List.getElem?_eq_some_iff.1 hI).1
    have h1 := (StartFrame.startInstance (env := env) e.insts.length (e.newEmbedded i o uri d) inputs).others j (by omega)
    exact ⟨I, by rw [h1, newEmbedded_getElem? _ _ _ _ _ hjl]; exact hI, Calm.refl I⟩
  | completed => exact hmod _ _
  | failed _ => exact hmod _ _
  | startEH h => exact hmod _ _
  | unhandled h => exact hmod _ _
  | retError err h => exact hmod _ _

/-- The task object and its working data are kept, and its activity is not called. -/
structure KeepObj (o : Nat) (I I' : Inst) : Prop where
  obj : ∀ ob : Obj, I.objs[o]? = some ob → ∃ ob' : Obj, I'.objs[o]? = some ob' ∧ ob'.task = ob.task ∧ ob'.work = ob.work
  calls : ∀ t, I'.trace.count (.evalAct o t) = I.trace.count (.evalAct o t)
  defn : I'.defn = I.defn

theorem KeepObj.refl (o : Nat) (I : Inst) : KeepObj o I I := ⟨fun ob h => ⟨ob, h, rfl, rfl⟩, fun _ => rfl, rfl⟩

theorem KeepObj.trans {o : Nat} {I J K : Inst} (h : KeepObj o I J) (g : KeepObj o J K) : KeepObj o I K := by
  refine ⟨fun ob hob => ?_, fun t => (g.calls t).trans (h.calls t), g.defn.trans h.defn⟩
  obtain ⟨ob1, h1, h2, h3⟩ := h.obj ob hob
  obtain ⟨ob2, h4, h5, h6⟩ := g.obj ob1 h1
  exact ⟨ob2, h4, h5.trans h2, h6.trans h3⟩

theorem Calm.keepObj {I I' : Inst} (h : Calm I I') (o : Nat) : KeepObj o I I' := by
  refine ⟨h.work.kept o, fun t => ?_, h.defn⟩
  have h1 : ∀ l : List Ev, (l.filter isLoud).count (.evalAct o t) = l.count (.evalAct o t) :=
    fun l => List.count_filter (by rfl)
  rw [← h1, h.loud, h1]

theorem SameInst.keepObj {p o : Nat} {I I' : Inst} (h : SameInst p I I') (hp : p ≠ o) : KeepObj o I I' := by
  refine ⟨fun ob hob => ⟨ob, (h.other o (Ne.symm hp)).trans hob, rfl, rfl⟩, fun t => ?_, h.defn⟩
  obtain ⟨evs, h1, h2⟩ := h.trace
  rw [h1, List.count_append]
  have : evs.count (.evalAct o t) = 0 := by
    rw [List.count_eq_zero]
    intro hm
    obtain ⟨ob, _, h3 | h3⟩ := h2 _ hm
    · cases h3; exact hp rfl
    · cases h3
  omega

/-- Operations keep all task objects but the evaluated one. -/
theorem Ops.keep {i : Nat} {e e' : Eng} (h : Ops env i q e e') : ∀ (j o : Nat) (I : Inst), (j ≠ i ∨ q ≠ some o) →
    e.insts[j]? = some I → ∃ I', e'.insts[j]? = some I' ∧ KeepObj o I I' := by
  have hmod : ∀ (e : Eng) (k : Nat) (f : Inst → Inst) (j o : Nat) (I : Inst), (e.insts[k]? = some I → j = k → KeepObj o I (f I)) → e.insts[j]? = some I →
      ∃ I', (e.modI k f).insts[j]? = some I' ∧ KeepObj o I I' := by
    intro e k f j o I hk hI
    rw [modI_getElem?]
    split
    · rename_i hkj; subst hkj; exact ⟨f I, by rw [hI]; rfl, hk hI rfl⟩
    · exact ⟨I, hI, .refl o I⟩
  have hpush : ∀ (o : Nat) (I : Inst) (s : FlowStatus), KeepObj o I (I.setFlowStatus s) := fun o I s =>
    ⟨fun ob h => ⟨ob, h, rfl, rfl⟩, fun t => by simp [Inst.setFlowStatus], rfl⟩
  induction h with
  | refl e => exact fun j o I _ hI => ⟨I, hI, .refl o I⟩
  | trans _ _ ih1 ih2 =>
    intro j o I hj hI
    obtain ⟨I1, h1, h2⟩ := ih1 j o I hj hI
    obtain ⟨I2, h3, h4⟩ := ih2 j o I1 hj h1
    exact ⟨I2, h3, h2.trans h4⟩
  | ctl h => exact fun j o I _ hI => ⟨I, by rw [h]; exact hI, .refl o I⟩
  | calm k f h => exact fun j o I _ hI => hmod _ k f j o I (fun hk _ => Calm.keepObj (h I hk) o) hI
  | attrs a _ => exact fun j o I _ hI => hmod _ i _ j o I (fun _ _ => ⟨fun ob h => ⟨ob, h, rfl, rfl⟩, fun _ => rfl, rfl⟩) hI
  | same p f hq h =>
    intro j o I hj hI
    refine hmod _ i f j o I (fun hk hji => SameInst.keepObj (h I hk) ?_) hI
    rcases hj with hj | hj
    · exact absurd hji hj
    · rw [hq] at hj; intro hpo; exact hj (by rw [hpo])
  | @sub e p uri d inputs =>
    intro j o I hj hI
    have hjl : j < e.insts.length := (List.getElem?_eq_some_iff.1 hI).1
    have h1 := (StartFrame.startInstance (env := env) e.insts.length (e.newEmbedded i p uri d) inputs).others j (by omega)
    exact ⟨I, by rw [h1, newEmbedded_getElem? _ _ _ _ _ hjl]; exact hI, .refl o I⟩
  | completed => exact fun j o I _ hI => hmod _ i _ j o I (fun _ _ => hpush _ _ _) hI
  | failed _ => exact fun j o I _ hI => hmod _ i _ j o I (fun _ _ => hpush _ _ _) hI
  | startEH h => exact fun j o I _ hI => hmod _ i _ j o I (fun _ _ => ⟨fun ob h => ⟨ob, h, rfl, rfl⟩, fun _ => by simp, rfl⟩) hI
  | unhandled h => exact fun j o I _ hI => hmod _ i _ j o I (fun _ _ => ⟨fun ob h => ⟨ob, h, rfl, rfl⟩, fun _ => by simp [Inst.setFlowStatus], rfl⟩) hI
  | retError err h => exact fun j o I _ hI => hmod _ i _ j o I (fun _ _ => ⟨fun ob h => ⟨ob, h, rfl, rfl⟩, fun _ => rfl, rfl⟩) hI

/-! ### Properties of single instances -/

/-- A property of flow instances that all elementary operations preserve. -/
structure StableH (P : Inst → Prop) : Prop where
  calm : ∀ {I I'}, Calm I I' → P I → P I'
  same : ∀ {o I I'}, SameInst o I I' → P I → P I'
  fresh : ∀ d uri k h a, P (Inst.setFlowStatus { defn := d, uri := uri, subflowId := k, host := h, attrs := a } .active)
  completed : ∀ {I}, P I → P (I.setFlowStatus .completed)
  failed : ∀ {I}, P I → I.handling = true → P (I.setFlowStatus .failed)
  startEH : ∀ {I}, P I → I.handling = false → I.defn.eh ≠ none → P { I with handling := true, trace := .ehStart :: I.trace }
  unhandled : ∀ {I}, P I → I.handling = false → I.defn.eh = none → P ({ I with handling := true }.setFlowStatus .failed)
  retError : ∀ {I} err, P I → I.status = .failed → P { I with returnError := some err }

/-- The same, also for failures of instances that handle no error. -/
structure Stable (P : Inst → Prop) : Prop where
  calm : ∀ {I I'}, Calm I I' → P I → P I'
  same : ∀ {o I I'}, SameInst o I I' → P I → P I'
  fresh : ∀ d uri k h a, P (Inst.setFlowStatus { defn := d, uri := uri, subflowId := k, host := h, attrs := a } .active)
  completed : ∀ {I}, P I → P (I.setFlowStatus .completed)
  failed : ∀ {I}, P I → P (I.setFlowStatus .failed)
  startEH : ∀ {I}, P I → I.handling = false → I.defn.eh ≠ none → P { I with handling := true, trace := .ehStart :: I.trace }
  unhandled : ∀ {I}, P I → I.handling = false → I.defn.eh = none → P ({ I with handling := true }.setFlowStatus .failed)
  retError : ∀ {I} err, P I → I.status = .failed → P { I with returnError := some err }

theorem Stable.weak {P : Inst → Prop} (h : Stable P) : StableH P :=
  ⟨h.calm, h.same, h.fresh, h.completed, fun hp _ => h.failed hp, h.startEH, h.unhandled, h.retError⟩

/-- All instances have the property. -/
def All (P : Inst → Prop) (e : Eng) : Prop := ∀ (i : Nat) (I : Inst), e.insts[i]? = some I → P I

theorem All.modI {P : Inst → Prop} {e : Eng} (h : All P e) (i : Nat) (f : Inst → Inst)
    (hf : ∀ I, e.insts[i]? = some I → P I → P (f I)) : All P (e.modI i f) := by
  intro j J hJ
  rw [modI_getElem?] at hJ
  split at hJ
  · rename_i hij; subst hij
    cases hI : e.insts[i]? with
    | none => simp [hI] at hJ
    | some I => simp [hI] at hJ; subst hJ; exact hf I hI (h i I hI)
  · exact h j J hJ

/-- Entering the start tasks is calm. -/
theorem enterStart_calm (k : Nat) (es : List TaskEntry) (e : Eng) {I : Inst} (hI : e.insts[k]? = some I) :
    ∃ I', (enterStart env e k es).insts[k]? = some I' ∧ Calm I I' := by
  induction es generalizing e I with
  | nil => exact ⟨I, hI, Calm.refl _⟩
  | cons x xs ih =>
    simp only [Eng.enterStart]
    rw [hI]
    dsimp only
    have h1 : (e.modI k (fun _ => (I.enterTask x.task).1)).insts[k]? = some (I.enterTask x.task).1 := modI_self hI _
    have hc := Calm.enterTask I x.task
    split
    · split
      · obtain ⟨I', h2, h3⟩ := ih (schedule (e.modI k (fun _ => (I.enterTask x.task).1)) k (I.enterTask x.task).2.1) h1
        exact ⟨I', h2, hc.trans h3⟩
      · exact ⟨_, h1, hc⟩
    · obtain ⟨I', h2, h3⟩ := ih _ h1
      exact ⟨I', h2, hc.trans h3⟩

/-- The started instance: attributes and status are set, start tasks are entered. -/
theorem startInstance_calm (e : Eng) (k : Nat) (ins : AMap String Val) {I : Inst} (hI : e.insts[k]? = some I) :
    ∃ I', (startInstance env e k ins).insts[k]? = some I' ∧
      Calm (Inst.setFlowStatus { I with attrs := e.startAttrs env I (e.parentOf I) ins } .active) I' := by
  unfold Eng.startInstance
  rw [hI]
  dsimp only
  exact enterStart_calm (env := env) k (Inst.startEntries I.defn false) (e.modI k _) (modI_self hI _)

theorem StableH.ops {P : Inst → Prop} (hP : StableH P) {k : Nat} {e e' : Eng} (h : Ops env k q e e') : All P e → All P e' := by
  induction h with
  | refl e => exact fun h => h
  | trans _ _ ih1 ih2 => exact fun h => ih2 (ih1 h)
  | ctl h => intro hA i I hI; rw [h] at hI; exact hA i I hI
  | calm j f h => exact fun hA => hA.modI j f fun I hI => hP.calm (h I hI)
  | attrs a h => exact fun hA => hA.modI k _ fun I _ => hP.same (o := 0) (SameInst.attrs _ (h I))
  | same o f hq h => exact fun hA => hA.modI k f fun I hI => hP.same (h I hI)
  | @sub e o uri d inputs =>
    intro hA j J hJ
    by_cases hj : j < e.insts.length
    · have h1 := (StartFrame.startInstance (env := env) e.insts.length (e.newEmbedded k o uri d) inputs).others j (by omega)
      rw [h1, newEmbedded_getElem? _ _ _ _ _ hj] at hJ
      exact hA j J hJ
    · have hlen := (StartFrame.startInstance (env := env) e.insts.length (e.newEmbedded k o uri d) inputs).len
      have hj2 : j = e.insts.length := by
        have := (List.getElem?_eq_some_iff.1 hJ).1
        rw [hlen, newEmbedded_length] at this
        omega
      subst hj2
      obtain ⟨I', h2, h3⟩ := startInstance_calm (env := env) (e.newEmbedded k o uri d) e.insts.length inputs (newEmbedded_new e k o uri d)
      rw [h2] at hJ; cases hJ
      exact hP.calm h3 (hP.fresh _ _ _ _ _)
  | completed => exact fun hA => hA.modI k _ fun I _ => hP.completed
  | failed h => exact fun hA => hA.modI k _ fun I hI hp => hP.failed hp (h I hI)
  | startEH h => exact fun hA => hA.modI k _ fun I hI hp => hP.startEH hp (h I hI).1 (h I hI).2
  | unhandled h => exact fun hA => hA.modI k _ fun I hI hp => hP.unhandled hp (h I hI).1 (h I hI).2
  | retError err h => exact fun hA => hA.modI k _ fun I hI hp => hP.retError err hp (h I hI)

theorem Stable.ops {P : Inst → Prop} (hP : Stable P) {k : Nat} {e e' : Eng} (h : Ops env k q e e') : All P e → All P e' := hP.weak.ops h

theorem StableH.reachable {P : Inst → Prop} (hP : StableH P) {e : Eng} (h : Reachable env e) : All P e := by
  obtain ⟨id, uri, d, ins, n, rfl⟩ := h
  induction n with
  | zero =>
    intro j J hJ
    simp only [Eng.run, Eng.init] at hJ
    have hlen := (StartFrame.startInstance (env := env) 0 (Eng.new id uri d) ins).len
    have hj : j = 0 := by
      have := (List.getElem?_eq_some_iff.1 hJ).1
      rw [hlen] at this
      simp [Eng.new] at this
      exact this
    subst hj
    obtain ⟨I', h2, h3⟩ := startInstance_calm (env := env) (Eng.new id uri d) 0 ins (I := { defn := d, uri := uri }) rfl
    rw [h2] at hJ; cases hJ
    exact hP.calm h3 (hP.fresh _ _ _ _ _)
  | succ n ih => exact hP.ops (Ops.step (engOK_run id uri d ins n).length_pos) ih

theorem Stable.reachable {P : Inst → Prop} (hP : Stable P) {e : Eng} (h : Reachable env e) : All P e := hP.weak.reachable h

/-- A property of one flow instance that all elementary operations preserve, except evaluations of task object `o`. -/
structure StableAt (o : Nat) (P : Inst → Prop) : Prop where
  calm : ∀ {I I'}, Calm I I' → P I → P I'
  same : ∀ {p I I'}, p ≠ o → SameInst p I I' → P I → P I'
  attrs : ∀ {I} a, P I → P { I with attrs := a }
  flow : ∀ {I} s, P I → P (I.setFlowStatus s)
  handling : ∀ {I}, P I → P { I with handling := true }
  start : ∀ {I}, P I → P { I with trace := .ehStart :: I.trace }
  retError : ∀ {I} err, P I → P { I with returnError := some err }

theorem StableAt.ops {P : Inst → Prop} {i o : Nat} (hP : StableAt o P)
    (hfresh : ∀ d uri k h, P { defn := d, uri := uri, subflowId := k, host := h }) {k : Nat} {e e' : Eng}
    (h : Ops env k q e e') (hk : k ≠ i ∨ q ≠ some o) :
    (∀ I, e.insts[i]? = some I → P I) → ∀ I, e'.insts[i]? = some I → P I := by
  have hmod : ∀ (e : Eng) (j : Nat) (f : Inst → Inst), (∀ I, e.insts[i]? = some I → P I) →
      (∀ I, j = i → e.insts[j]? = some I → P I → P (f I)) → ∀ I, (e.modI j f).insts[i]? = some I → P I := by
    intro e j f hA hf I hI
    rw [modI_getElem?] at hI
    split at hI
    · rename_i hij; subst hij
      cases hJ : e.insts[j]? with
      | none => rw [hJ] at hI; cases hI
      | some J => rw [hJ] at hI; cases hI; exact hf J rfl hJ (hA J hJ)
    · exact hA I hI
  induction h with
  | refl e => exact fun h => h
  | trans _ _ ih1 ih2 => exact fun h => ih2 (ih1 h)
  | ctl h => intro hA I hI; rw [h] at hI; exact hA I hI
  | calm j f h => exact fun hA => hmod _ j f hA fun I _ hI => hP.calm (h I hI)
  | attrs a _ => exact fun hA => hmod _ k _ hA fun I _ _ => hP.attrs _
  | same p f hq h =>
    refine fun hA => hmod _ k f hA fun I hki hI => hP.same ?_ (h I hI)
    rcases hk with hk | hk
    · exact absurd hki hk
    · intro hpo; exact hk (by rw [hq, hpo])
  | @sub e p uri d inputs =>
    intro hA J hJ
    by_cases hj : i < e.insts.length
    · have h1 := (StartFrame.startInstance (env := env) e.insts.length (e.newEmbedded k p uri d) inputs).others i (by omega)
      rw [h1, newEmbedded_getElem? _ _ _ _ _ hj] at hJ
      exact hA J hJ
    · have hlen := (StartFrame.startInstance (env := env) e.insts.length (e.newEmbedded k p uri d) inputs).len
      have hj2 : i = e.insts.length := by
        have := (List.getElem?_eq_some_iff.1 hJ).1
        rw [hlen, newEmbedded_length] at this
        omega
      subst hj2
      obtain ⟨I', h2, h3⟩ := startInstance_calm (env := env) (e.newEmbedded k p uri d) e.insts.length inputs (newEmbedded_new e k p uri d)
      rw [h2] at hJ; cases hJ
      exact hP.calm h3 (hP.flow _ (hP.attrs _ (hfresh _ _ _ _)))
  | completed => exact fun hA => hmod _ k _ hA fun I _ _ => hP.flow _
  | failed _ => exact fun hA => hmod _ k _ hA fun I _ _ => hP.flow _
  | startEH h => exact fun hA => hmod _ k _ hA fun I _ _ hp => hP.handling (hP.start hp)
  | unhandled h => exact fun hA => hmod _ k _ hA fun I _ _ hp => hP.flow _ (hP.handling hp)
  | retError err h => exact fun hA => hmod _ k _ hA fun I _ _ => hP.retError err

/-- An instance that is handling an error has an error handler or is finished. -/
theorem handling_reachable {e : Eng} (h : Reachable env e) {i : Nat} {I : Inst} (hI : e.insts[i]? = some I)
    (hh : I.handling = true) (ha : I.status = .active) : I.defn.eh ≠ none := by
  have hP : Stable (fun I => I.handling = true → I.status = .active → I.defn.eh ≠ none) := by
    refine ⟨?_, ?_, ?_, ?_, ?_, ?_, ?_, ?_⟩
    · intro I I' h hp; rw [h.handling, h.status, h.defn]; exact hp
    · intro o I I' h hp; rw [h.handling, h.status, h.defn]; exact hp
    · intro d uri k h a; simp [Inst.setFlowStatus]
    · intro I _; simp [Inst.setFlowStatus]
    · intro I _; simp [Inst.setFlowStatus]
    · intro I _ _ hg _ _; exact hg
    · intro I _; simp [Inst.setFlowStatus]
    · intro I err hp _; exact hp
  exact hP.reachable h i I hI hh ha

/-- A failed instance is handling an error or has failed without an error handler. -/
theorem failed_reachable {e : Eng} (h : Reachable env e) {i : Nat} {I : Inst} (hI : e.insts[i]? = some I) (hf : I.status = .failed) :
    I.handling = true := by
  have hP : StableH (fun I => I.status = .failed → I.handling = true) := by
    refine ⟨?_, ?_, ?_, ?_, ?_, ?_, ?_, ?_⟩
    · intro I I' h hp; rw [h.handling, h.status]; exact hp
    · intro o I I' h hp; rw [h.handling, h.status]; exact hp
    · intro d uri k h a hx; cases hx
    · intro I _ hx; cases hx
    · intro I _ hh _; exact hh
    · intro I _ _ _ _; rfl
    · intro I _ _ _ _; rfl
    · intro I err hp hs hx; exact hp hx
  exact hP.reachable h i I hI hf

end Eng
end Flow
