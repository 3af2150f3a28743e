import Verif.Proofs.Data
import Verif.Proofs.Loops
import Verif.Proofs.Fail
import Verif.Spec.Loops

/-
Who changes the attribute that holds the accumulated outputs of a loop task.
-/

namespace Flow
open Spec

theorem AMap.get?_update_none {K V : Type} [DecidableEq K] (n : AMap K V) (k : K) (h : n.get? k = none) : ∀ m : AMap K V,
    (m.update n).get? k = m.get? k := by
  unfold AMap.update
  induction n with
  | nil => intro m; rfl
  | cons p n ih =>
    intro m
    obtain ⟨a, b⟩ := p
    have ha : a ≠ k := fun hc => by subst hc; simp [AMap.get?] at h
    have hn : AMap.get? n k = none := by simpa [AMap.get?, ha] using h
    rw [List.foldl_cons, ih hn, AMap.get?_set_ne _ _ ha]

/-- The value after the entries were added. -/
def Appended (v v' : Option Val) (new : List Val) : Prop :=
  (new = [] ∧ v' = v) ∨ ∃ l, entries v = some l ∧ v' = some (.arr (l ++ new))

theorem Appended.trans {u v w : Option Val} {a b : List Val} (h : Appended u v a) (h' : Appended v w b) : Appended u w (a ++ b) := by
  rcases h with ⟨rfl, rfl⟩ | ⟨l, hl, rfl⟩
  · exact h'
  · rcases h' with ⟨rfl, rfl⟩ | ⟨m, hm, rfl⟩
    · exact .inr ⟨l, hl, by rw [List.append_nil]⟩
    · cases hm
      exact .inr ⟨l, hl, by rw [List.append_assoc]⟩

theorem Appended.entries {v v' : Option Val} {new l : List Val} (h : Appended v v' new) (hl : Spec.entries v = some l) :
    Spec.entries v' = some (l ++ new) := by
  rcases h with ⟨rfl, rfl⟩ | ⟨m, hm, rfl⟩
  · rw [List.append_nil]; exact hl
  · rw [hl] at hm; cases hm; rfl

namespace Eng

variable {env : Env} {key : String} {i o : Nat}

/-- The attribute is changed in no instance. -/
def KeptAttr (key : String) (e e' : Eng) : Prop :=
  ∀ (j : Nat) (I : Inst), e.insts[j]? = some I → ∃ I' : Inst, e'.insts[j]? = some I' ∧ I'.attrs.get? key = I.attrs.get? key

namespace KeptAttr

theorem refl (e : Eng) : KeptAttr key e e := fun _ I hI => ⟨I, hI, rfl⟩

theorem trans {e f g : Eng} (h : KeptAttr key e f) (h' : KeptAttr key f g) : KeptAttr key e g := by
  intro j I hI
  obtain ⟨J, hJ, h1⟩ := h j I hI
  obtain ⟨K, hK, h2⟩ := h' j J hJ
  exact ⟨K, hK, h2.trans h1⟩

theorem ctl {e e' : Eng} (h : e'.insts = e.insts) : KeptAttr key e e' := fun j I hI => ⟨I, by rw [h]; exact hI, rfl⟩

theorem mod {e : Eng} {i : Nat} (f : Inst → Inst) (hf : ∀ I, e.insts[i]? = some I → (f I).attrs.get? key = I.attrs.get? key) :
    KeptAttr key e (e.modI i f) := by
  intro j I hI
  rw [modI_getElem?]
  split
  · rename_i hij; subst hij; rw [hI]; exact ⟨f I, rfl, hf I hI⟩
  · exact ⟨I, hI, rfl⟩

theorem same {e : Eng} {i : Nat} (f : Inst → Inst) (hf : ∀ I, (f I).attrs = I.attrs) : KeptAttr key e (e.modI i f) :=
  mod f fun I _ => by rw [hf]

theorem modO {e : Eng} {i o : Nat} (f : Obj → Obj) : KeptAttr key e (e.modI i (fun I => I.modO o f)) := same _ fun _ => rfl

theorem setStatus (e : Eng) (i o : Nat) (s : TaskStatus) : KeptAttr key e (e.setStatus i o s) :=
  same _ fun I => by unfold Inst.setTaskStatus; split <;> rfl

theorem set {e : Eng} {i : Nat} (k : String) (v : Val) (h : k ≠ key) : KeptAttr key e (e.modI i (fun I => I.setValue k v)) :=
  mod _ fun _ _ => AMap.get?_set_ne _ _ h

theorem const {e : Eng} {i : Nat} {I I1 : Inst} (hI : e.insts[i]? = some I) (h : I1.attrs = I.attrs) : KeptAttr key e (e.modI i (fun _ => I1)) :=
  mod _ fun J hJ => by rw [hI] at hJ; cases hJ; rw [h]

theorem enterStart (env : Env) (i : Nat) (es : List TaskEntry) : ∀ e : Eng, KeptAttr key e (Eng.enterStart env e i es) := by
  induction es with
  | nil => exact refl
  | cons y ys ih =>
    intro e
    unfold Eng.enterStart
    split
    · exact refl e
    · rename_i I hI
      have h1 : KeptAttr key e (e.modI i (fun _ => (I.enterTask y.task).1)) := const hI (Calm.enterTask I _).attrs
      dsimp only
      split
      · split
        · have h2 : KeptAttr key (e.modI i (fun _ => (I.enterTask y.task).1)) (Eng.schedule (e.modI i (fun _ => (I.enterTask y.task).1)) i (I.enterTask y.task).2.1) := ctl rfl
          exact (h1.trans h2).trans (ih _)
        · exact h1
      · exact h1.trans (ih _)

theorem sub (env : Env) (e : Eng) (i o : Nat) (uri : String) (d : Def) (ins : AMap String Val) :
    KeptAttr key e (Eng.startInstance env (e.newEmbedded i o uri d) e.insts.length ins) := by
  intro j I hI
  have hl : j < e.insts.length := (List.getElem?_eq_some_iff.mp hI).1
  have h1 : (e.newEmbedded i o uri d).insts[j]? = some I := by rw [newEmbedded_getElem? _ _ _ _ _ hl]; exact hI
  unfold Eng.startInstance
  split
  · exact ⟨I, h1, rfl⟩
  · rename_i I0 hI0
    dsimp only
    refine enterStart env _ _ _ j I ?_
    rw [modI_getElem?, if_neg (by omega)]
    exact h1

theorem applyActOut (e : Eng) (i o : Nat) (a : ActOut) (ha : a.sets.get? key = none) : KeptAttr key e (e.applyActOut i o a) := by
  have h1 : KeptAttr key e (e.modI i (fun I =>
      let I1 := { I with attrs := I.attrs.update a.sets }
      let I2 := match a.outputs with
        | none => I1
        | some m => I1.modO o (fun x => { x with outputs := m })
      match a.ret with
      | none => I2
      | some (d, err) => { I2 with force := true, returnData := d, returnError := err })) := by
    refine mod _ fun I _ => ?_
    dsimp only
    have h2 := AMap.get?_update_none a.sets key ha I.attrs
    cases a.outputs <;> cases a.ret <;> exact h2
  unfold Eng.applyActOut
  dsimp only
  split
  · exact h1
  · split
    · rename_i d _ _ _
      exact (h1.trans (same (i := 0) (fun I => { I with returnData := some d }) fun _ => rfl)).trans (ctl rfl)
    · exact h1

end KeptAttr

/-- The attribute of instance `i` got these entries, nothing else was changed. -/
def Grew (key : String) (i : Nat) (new : List Val) (e e' : Eng) : Prop :=
  ∀ (j : Nat) (I : Inst), e.insts[j]? = some I → ∃ I' : Inst, e'.insts[j]? = some I' ∧
    (j ≠ i → I'.attrs.get? key = I.attrs.get? key) ∧ (j = i → Appended (I.attrs.get? key) (I'.attrs.get? key) new)

theorem KeptAttr.grew {e e' : Eng} (h : KeptAttr key e e') : Grew key i [] e e' := by
  intro j I hI
  obtain ⟨J, hJ, h1⟩ := h j I hI
  exact ⟨J, hJ, fun _ => h1, fun _ => .inl ⟨rfl, h1⟩⟩

theorem Grew.trans {a b : List Val} {e f g : Eng} (h : Grew key i a e f) (h' : Grew key i b f g) : Grew key i (a ++ b) e g := by
  intro j I hI
  obtain ⟨J, hJ, h1, h2⟩ := h j I hI
  obtain ⟨K, hK, h3, h4⟩ := h' j J hJ
  exact ⟨K, hK, fun hj => (h3 hj).trans (h1 hj), fun hj => (h2 hj).trans (h4 hj)⟩

theorem Grew.then {a : List Val} {e f g : Eng} (h : Grew key i a e f) (h' : KeptAttr key f g) : Grew key i a e g := by
  have := h.trans (h'.grew (i := i))
  rwa [List.append_nil] at this

theorem KeptAttr.then {a : List Val} {e f g : Eng} (h : KeptAttr key e f) (h' : Grew key i a f g) : Grew key i a e g :=
  h.grew.trans h'

theorem errKey_ne (t id : String) : "_E." ++ t ≠ "_A." ++ id := by
  intro h
  have := congrArg String.toList h
  simp at this

theorem errKey_ne' (id : String) : "_E" ≠ "_A." ++ id := by
  intro h
  have := congrArg String.toList h
  simp at this

theorem actKey_ne {t id : String} (h : t ≠ id) : "_A." ++ t ≠ "_A." ++ id := by
  intro hc
  apply h
  have := congrArg String.toList hc
  simp at this
  exact String.ext_iff.mpr this

theorem outputsOf_mod {e : Eng} (f : Inst → Inst) (hf : ∀ I, (f I).objs = I.objs) (j : Nat) : outputsOf (e.modI j f) i o = outputsOf e i o := by
  unfold Spec.outputsOf Eng.obj?
  rw [modI_getElem?]
  by_cases hij : j = i
  · rw [if_pos hij]
    cases e.insts[i]? with
    | none => rfl
    | some I => simp only [Option.map_some, hf]
  · rw [if_neg hij]

theorem outputsOf_modO {e : Eng} (f : Obj → Obj) (hf : ∀ x, (f x).outputs = x.outputs) (p : Nat) :
    outputsOf (e.modI i (fun I => I.modO p f)) i o = outputsOf e i o := by
  unfold Spec.outputsOf Eng.obj?
  rw [modI_getElem?, if_pos rfl]
  cases e.insts[i]? with
  | none => rfl
  | some I =>
    simp only [Option.map_some]
    unfold Inst.modO
    simp only [List.getElem?_modify]
    cases I.objs[o]? with
    | none => rfl
    | some x =>
      by_cases hp : p = o
      · simp [hp, hf]
      · simp [hp]

theorem outputsOf_setStatus (e : Eng) (s : TaskStatus) : outputsOf (e.setStatus i o s) i o = outputsOf e i o := by
  unfold Spec.outputsOf Eng.obj? Eng.setStatus
  rw [modI_getElem?, if_pos rfl]
  cases hI : e.insts[i]? with
  | none => rfl
  | some I =>
    simp only [Option.map_some]
    cases ho : I.objs[o]? with
    | none =>
      have : I.setTaskStatus o s = I := by unfold Inst.setTaskStatus; rw [ho]
      rw [this, ho]
    | some x => rw [setTaskStatus_obj ho]; rfl

/-- An attempt adds at most `n` entries: exactly `n` if it succeeds, none if it waits or fails with an error of the activity. -/
def Attempt (key : String) (i o n : Nat) (e : Eng) (p : Eng × Except Err Bool) : Prop :=
  ∃ new, Grew key i new e p.1 ∧ new.length ≤ n ∧ (p.2 = .ok true → new.length = n) ∧ (p.2 = .ok false → new = []) ∧
    (∀ err, p.2 = .error err → err.isAct = true → new = []) ∧ ∀ v ∈ new, v = outputsOf p.1 i o

theorem KeptAttr.error {n : Nat} {e e' : Eng} (h : KeptAttr key e e') (err : Err) : Attempt key i o n e (e', .error err) :=
  ⟨[], h.grew, Nat.zero_le _, (nomatch ·), fun _ => rfl, fun _ _ _ => rfl, fun _ hv => nomatch hv⟩

theorem KeptAttr.waits {n : Nat} {e e' : Eng} (h : KeptAttr key e e') : Attempt key i o n e (e', .ok false) :=
  ⟨[], h.grew, Nat.zero_le _, (nomatch ·), fun _ => rfl, fun _ _ _ => rfl, fun _ hv => nomatch hv⟩

theorem KeptAttr.attempt {n : Nat} {e f : Eng} (h : KeptAttr key e f) {p : Eng × Except Err Bool} (hp : Attempt key i o n f p) : Attempt key i o n e p := by
  obtain ⟨new, h1, h2⟩ := hp
  exact ⟨new, h.then h1, h2⟩

/-- The number of entries per successful attempt of a task. -/
def perAttempt (id : TaskId) (t : TaskRef) (td : TaskDef) : Nat := if td.accumulates = true ∧ t.id = id then 1 else 0

/-- The same for the part that stores the outputs. -/
def Stored (key : String) (i o n : Nat) (e : Eng) (p : Eng × Option Err) : Prop :=
  ∃ new, Grew key i new e p.1 ∧ new.length ≤ n ∧ (p.2 = none → new.length = n) ∧
    (∀ err, p.2 = some err → err.isAct = true → new = []) ∧ ∀ v ∈ new, v = outputsOf p.1 i o

theorem KeptAttr.stored {n : Nat} {e f : Eng} (h : KeptAttr key e f) {p : Eng × Option Err} (hp : Stored key i o n f p) : Stored key i o n e p := by
  obtain ⟨new, h1, h2⟩ := hp
  exact ⟨new, h.then h1, h2⟩

theorem KeptAttr.failed {n : Nat} {e e' : Eng} (h : KeptAttr key e e') (err : Err) : Stored key i o n e (e', some err) :=
  ⟨[], h.grew, Nat.zero_le _, (nomatch ·), fun _ _ _ => rfl, fun _ hv => nomatch hv⟩

variable {id : TaskId}

theorem accumulate_stored (e : Eng) {I : Inst} (hI : e.insts[i]? = some I) (t : TaskRef) {td : TaskDef} (ha : td.accumulates = true) :
    Stored ("_A." ++ id) i o (perAttempt id t td) e (e.accumulate i o t.id) := by
  by_cases ht : t.id = id
  · have hn : perAttempt id t td = 1 := if_pos ⟨ha, ht⟩
    rw [hn]
    subst ht
    have hv : ∀ v, .obj (((I.objs[o]?).bind (·.outputs)).getD []) = outputsOf (e.modI i (fun J => J.setValue ("_A." ++ t.id) v)) i o := by
      intro v
      rw [outputsOf_mod]
      · unfold Spec.outputsOf
        rw [obj?_eq hI]
      · intro _; rfl
    have hg : ∀ (l : List Val) (x : Val), entries (I.attrs.get? ("_A." ++ t.id)) = some l →
        Grew ("_A." ++ t.id) i [x] e (e.modI i (fun J => J.setValue ("_A." ++ t.id) (.arr (l ++ [x])))) := by
      intro l x hl j J hJ
      rw [modI_getElem?]
      split
      · rename_i hij
        subst hij
        rw [hI] at hJ
        cases hJ
        rw [hI]
        exact ⟨_, rfl, fun h => absurd rfl h, fun _ => .inr ⟨l, hl, AMap.get?_set_self _ _ _⟩⟩
      · rename_i hij
        exact ⟨J, hJ, fun _ => rfl, fun h => absurd h.symm hij⟩
    unfold Eng.accumulate
    rw [hI]
    dsimp only
    split
    · rename_i hx
      exact ⟨[_], hg [] _ (by rw [hx]; rfl), Nat.le_refl _, fun _ => rfl, fun _ h => (nomatch h), fun v h => by rw [List.mem_singleton.1 h]; exact hv _⟩
    · rename_i l hx
      exact ⟨[_], hg l _ (by rw [hx]; rfl), Nat.le_refl _, fun _ => rfl, fun _ h => (nomatch h), fun v h => by rw [List.mem_singleton.1 h]; exact hv _⟩
    · exact (KeptAttr.refl e).failed _
  · have hn : perAttempt id t td = 0 := if_neg fun h => ht h.2
    rw [hn]
    have hk : ∀ v, KeptAttr ("_A." ++ id) e (e.modI i (fun J => J.setValue ("_A." ++ t.id) v)) := fun v => .set _ _ (actKey_ne ht)
    unfold Eng.accumulate
    rw [hI]
    dsimp only
    split
    · exact ⟨[], (hk _).grew, Nat.le_refl _, fun _ => rfl, fun _ _ _ => rfl, fun _ hv => nomatch hv⟩
    · exact ⟨[], (hk _).grew, Nat.le_refl _, fun _ => rfl, fun _ _ _ => rfl, fun _ hv => nomatch hv⟩
    · exact (KeptAttr.refl e).failed _

variable (hu : Reserved env ("_A." ++ id))
include hu

theorem outputMapper_kept (e : Eng) (name : String) : KeptAttr ("_A." ++ id) e (outputMapper env e i o name).1 ∧
    (∀ err, (outputMapper env e i o name).2 = some err → err.isAct = false) ∧
    outputsOf (outputMapper env e i o name).1 i o = outputsOf e i o := by
  unfold Eng.outputMapper
  split
  · exact ⟨.refl e, fun _ h => (nomatch h), rfl⟩
  · rename_i vals err heq
    refine ⟨.mod _ fun I _ => AMap.get?_update_none _ _ (hu.out _ _ _ _ _ heq) _, fun er h => ?_,
      outputsOf_mod (fun I => { I with attrs := I.attrs.update vals }) (fun _ => rfl) _⟩
    cases err with
    | none => cases h
    | some m => cases h; rfl

omit hu in
theorem outputInterceptor_kept (e : Eng) (ob : Obj) (td : TaskDef) : KeptAttr key e (outputInterceptor env e i o ob td).1 := by
  unfold Eng.outputInterceptor
  split
  · exact .refl e
  · split
    · exact .refl e
    · split
      · exact .refl e
      · split <;> exact .refl e
      · split
        · exact .refl e
        · exact .modO _

omit hu in
theorem Stored.andThen {n : Nat} {e : Eng} {p : Eng × Option Err} (h : Stored key i o n e p) {k : Eng → Eng × Option Err}
    (hk : KeptAttr key p.1 (k p.1).1 ∧ (∀ err, (k p.1).2 = some err → err.isAct = false) ∧ outputsOf (k p.1).1 i o = outputsOf p.1 i o) : Stored key i o n e (Eng.andThen p k) := by
  obtain ⟨new, h1, h2, h3, h4, h5⟩ := h
  obtain ⟨e1, x⟩ := p
  cases x with
  | some err => exact ⟨new, h1, h2, (nomatch ·), h4, h5⟩
  | none =>
    refine ⟨new, h1.then hk.1, h2, fun _ => h3 rfl, fun err he ha => ?_, fun v hv => (h5 v hv).trans hk.2.2.symm⟩
    have := hk.2.1 err he
    rw [this] at ha
    cases ha

omit hu in
theorem assertion_kept (e : Eng) (ob : Obj) : KeptAttr key e (assertion env e i ob).1 ∧
    (∀ err, (assertion env e i ob).2 = some err → err.isAct = false) ∧ outputsOf (assertion env e i ob).1 i o = outputsOf e i o := by
  unfold Eng.assertion
  split
  · split
    · exact ⟨.refl e, fun _ h => by cases h; rfl, rfl⟩
    · exact ⟨.refl e, fun _ h => (nomatch h), rfl⟩
  · exact ⟨.refl e, fun _ h => (nomatch h), rfl⟩

omit hu in
theorem stored_none {n : Nat} {e : Eng} {t : TaskRef} {td : TaskDef} (ha : td.accumulates = false) {p : Eng × Option Err}
    (h : KeptAttr key e p.1) (hn : n = perAttempt id t td) : Stored key i o n e p := by
  have : perAttempt id t td = 0 := if_neg fun h => by rw [ha] at h; exact absurd h.1 (by decide)
  rw [hn, this]
  exact ⟨[], h.grew, Nat.le_refl _, fun _ => rfl, fun _ _ _ => rfl, fun _ hv => nomatch hv⟩

theorem storeOutputs_stored (e : Eng) {I : Inst} (hI : e.insts[i]? = some I) (t : TaskRef) (td : TaskDef) :
    Stored ("_A." ++ id) i o (perAttempt id t td) e (storeOutputs env e i o t.id td) := by
  unfold Eng.storeOutputs
  split
  · rename_i ha
    refine (accumulate_stored e hI t ha).andThen ?_
    split
    · exact outputMapper_kept hu _ _
    · exact ⟨.refl _, fun _ h => (nomatch h), rfl⟩
  · rename_i ha
    exact stored_none (by simpa using ha) (outputMapper_kept hu _ _).1 rfl

omit hu in
/-- The outputs of an attempt. -/
theorem results_stored (e : Eng) {I : Inst} (hI : e.insts[i]? = some I) (ob : Obj) (td : TaskDef) {k : Eng → Eng × Option Err}
    (hk : ∀ (e1 : Eng) (I1 : Inst), e1.insts[i]? = some I1 → Stored ("_A." ++ id) i o (perAttempt id ob.task td) e1 (k e1)) :
    Stored ("_A." ++ id) i o (perAttempt id ob.task td) e (Eng.andThen (outputInterceptor env e i o ob td) (fun e1 =>
      Eng.andThen (k e1) (fun e2 => assertion env e2 i ob))) := by
  have h1 := outputInterceptor_kept (env := env) (key := "_A." ++ id) (i := i) (o := o) e ob td
  generalize outputInterceptor env e i o ob td = q at h1
  obtain ⟨e1, x⟩ := q
  cases x with
  | some err => exact h1.failed _
  | none =>
    obtain ⟨I1, hI1, _⟩ := h1 i I hI
    exact h1.stored ((hk e1 I1 hI1).andThen (assertion_kept _ _))

theorem afterDone_attempt (e : Eng) {I : Inst} (hI : e.insts[i]? = some I) (ob : Obj) (td : TaskDef) :
    Attempt ("_A." ++ id) i o (perAttempt id ob.task td) e (afterDone env e i o ob td) := by
  unfold Eng.afterDone
  split
  · exact (KeptAttr.refl e).error _
  · obtain ⟨new, h1, h2, h3, h4, h5⟩ := results_stored (env := env) (o := o) e hI ob td (k := fun e1 => storeOutputs env e1 i o ob.task.id td)
      fun e1 I1 hI1 => storeOutputs_stored hu e1 hI1 ob.task td
    revert h1 h2 h3 h4 h5
    generalize Eng.andThen (outputInterceptor env e i o ob td) _ = q
    obtain ⟨e1, x⟩ := q
    intro h1 h2 h3 h4 h5
    cases x with
    | none => exact ⟨new, h1, h2, fun _ => h3 rfl, (nomatch ·), fun _ h => (nomatch h), h5⟩
    | some err => exact ⟨new, h1, h2, (nomatch ·), (nomatch ·), fun er h => by cases h; exact h4 err rfl, h5⟩

theorem callActivity_kept (e : Eng) (ob : Obj) (td : TaskDef) : KeptAttr ("_A." ++ id) e (callActivity env e i o ob td).1 := by
  have h0 : KeptAttr ("_A." ++ id) e (e.modI i (fun I => { I with trace := .evalAct o ob.task :: I.trace })) := .same _ fun _ => rfl
  have hact := h0.trans (KeptAttr.applyActOut _ i o _ (hu.act (e.modI i (fun I => { I with trace := .evalAct o ob.task :: I.trace })) i o))
  unfold Eng.callActivity
  dsimp only
  split
  · refine h0.trans ?_
    unfold Eng.startSubFlow
    split
    · exact .refl _
    · exact .refl _
    · exact .sub _ _ _ _ _ _ _
  · split <;> exact hact

omit hu in
theorem evalErrorData_kept (e : Eng) (t : TaskId) (err : Err) : KeptAttr ("_A." ++ id) e (e.evalErrorData i t err) := by
  refine .mod _ fun I _ => ?_
  dsimp only
  refine (AMap.get?_set_ne _ _ (errKey_ne _ _)).trans ?_
  split
  · rfl
  · exact AMap.get?_set_ne _ _ (errKey_ne' _)

theorem evalWith_attempt (p : Eng × Bool) {I : Inst} (hI : p.1.insts[i]? = some I) (ob : Obj) (td : TaskDef) :
    Attempt ("_A." ++ id) i o (perAttempt id ob.task td) p.1 (evalWith env p i o ob td) := by
  unfold Eng.evalWith
  split
  · exact afterDone_attempt hu _ hI ob td
  · split
    · exact (KeptAttr.refl _).error _
    · split
      · exact afterDone_attempt hu _ hI ob td
      · have h1 := callActivity_kept (i := i) (o := o) hu p.1 ob td
        generalize callActivity env p.1 i o ob td = q at h1
        obtain ⟨e3, x, pk⟩ := q
        cases x with
        | error err =>
          dsimp only
          refine KeptAttr.error ?_ _
          split
          · exact h1
          · exact KeptAttr.trans h1 (evalErrorData_kept _ _ _)
        | ok b =>
          cases b with
          | true =>
            obtain ⟨I1, hI1, _⟩ := h1 i I hI
            exact h1.attempt (afterDone_attempt hu _ hI1 ob td)
          | false => exact h1.waits

theorem evalOnce_attempt {e : Eng} {t : TaskRef} {d : Def} (hs : Stands i o t d e) {td : TaskDef} (htd : d.task? t = some td) :
    Attempt ("_A." ++ id) i o (perAttempt id t td) e (evalOnce env e i o) := by
  obtain ⟨ob, ho, rfl, h2⟩ := hs.taskDef
  obtain ⟨I, hI, _⟩ := obj?_some ho
  unfold Eng.evalOnce
  rw [ho]
  dsimp only
  rw [h2, htd]
  dsimp only
  have h1 : KeptAttr ("_A." ++ id) e (applyInputMapper env e i o td.name).1 := by
    unfold Eng.applyInputMapper
    split
    · exact .refl e
    · exact .refl e
    · exact .modO _
  generalize applyInputMapper env e i o td.name = q at h1
  obtain ⟨e1, x⟩ := q
  cases x with
  | some err => exact h1.error _
  | none =>
    have h3 : KeptAttr ("_A." ++ id) e1 (inputInterceptor env e1 i o ob).1 := by
      unfold Eng.inputInterceptor
      split
      · exact .refl _
      · exact .modO _
    obtain ⟨I1, hI1, _⟩ := (KeptAttr.trans h1 h3) i I hI
    exact (KeptAttr.trans h1 h3).attempt (evalWith_attempt hu _ hI1 ob td)

omit hu in
theorem Stands.evals {t : TaskRef} {d : Def} {e e' : Eng} {s : Option String} (hs : Stands i o t d e) (h : Evals env i o s e e') : Stands i o t d e' := by
  obtain ⟨I, ob, hI, ho, ht, hd⟩ := hs
  obtain ⟨I', hI', h1⟩ := h.obj.2.1 I hI
  obtain ⟨ob', h2, h3, _⟩ := h1.task_eq' ho
  exact ⟨I', ob', hI', h2, h3.trans ht, h1.defn.trans hd⟩

omit hu in
theorem retriable_isAct {err : Err} (h : err.retriable = true) : err.isAct = true := by
  cases err <;> first | rfl | cases h

theorem retryFrom_attempt {t : TaskRef} {d : Def} {td : TaskDef} (htd : d.task? t = some td) (m : Nat) : ∀ {e : Eng}, Stands i o t d e →
    Attempt ("_A." ++ id) i o (perAttempt id t td) e (retryFrom env m e i o) := by
  induction m with
  | zero =>
    intro e hs
    have h1 : KeptAttr ("_A." ++ id) e (e.setRetry i o 0) := .modO _
    exact h1.attempt (evalOnce_attempt hu (hs.evals (env := env) (s := none) (.setRetry e 0)) htd)
  | succ m ih =>
    intro e hs
    have h1 : KeptAttr ("_A." ++ id) e (e.setRetry i o (m + 1)) := .modO _
    have hs1 := hs.evals (env := env) (s := none) (.setRetry e (m + 1))
    have h2 := evalOnce_attempt hu hs1 htd
    have hs2 := hs1.evals (.evalOnce (env := env) (e.setRetry i o (m + 1)))
    unfold Eng.retryFrom
    generalize evalOnce env (e.setRetry i o (m + 1)) i o = q at h2 hs2
    obtain ⟨e1, x⟩ := q
    cases x with
    | ok b => exact h1.attempt h2
    | error err =>
      dsimp only
      split
      · rename_i hr
        obtain ⟨new, a, b, c, d1, e3, e4⟩ := h2
        have h3 := e3 err rfl (retriable_isAct hr)
        subst h3
        obtain ⟨new', a', b'⟩ := ih hs2
        exact ⟨new', h1.then (a.trans a'), b'⟩
      · exact h1.attempt h2

omit hu in
theorem getRetry_kept (e : Eng) : KeptAttr key e (getRetry env e i o).1 := by
  unfold Eng.getRetry
  split
  · exact .refl _
  · split
    · exact .refl _
    · exact .modO _

theorem evalActivity_attempt {t : TaskRef} {d : Def} {td : TaskDef} (htd : d.task? t = some td) {e : Eng} (hs : Stands i o t d e) :
    Attempt ("_A." ++ id) i o (perAttempt id t td) e (evalActivity env e i o) := by
  have h2 := evalOnce_attempt hu hs htd
  have hs2 := hs.evals (.evalOnce (env := env) e)
  unfold Eng.evalActivity
  generalize evalOnce env e i o = q at h2 hs2
  obtain ⟨e1, x⟩ := q
  cases x with
  | ok b => exact h2
  | error err =>
    dsimp only
    split
    · rename_i hr
      have hr1 : err.retriable = true := by
        cases hx : err.retriable with
        | true => rfl
        | false => rw [hx] at hr; cases hr
      obtain ⟨new, a, b, c, d1, e3, e4⟩ := h2
      have h3 := e3 err rfl (retriable_isAct hr1)
      subst h3
      have h4 : KeptAttr ("_A." ++ id) e1 (getRetry env e1 i o).1 := getRetry_kept _
      have hs3 := hs2.evals (env := env) (s := none) (.getRetry e1)
      generalize getRetry env e1 i o = q at h4 hs3
      obtain ⟨e2, y⟩ := q
      cases y with
      | error rerr => exact ⟨[], a.then h4, Nat.zero_le _, (nomatch ·), fun _ => rfl, fun _ _ _ => rfl, fun _ hv => nomatch hv⟩
      | ok c =>
        dsimp only
        split
        · obtain ⟨new', a', b'⟩ := retryFrom_attempt hu htd (c.toNat - 1) hs3
          exact ⟨new', (a.then h4).trans a', b'⟩
        · exact ⟨[], a.then h4, Nat.zero_le _, (nomatch ·), fun _ => rfl, fun _ _ _ => rfl, fun _ hv => nomatch hv⟩
    · exact h2

/-! ### Resuming -/

/-- What resuming a task adds: exactly `n` entries if it succeeds, unless the activity goes on after that. -/
def Resumption (key : String) (i o n : Nat) (late : Prop) (e : Eng) (p : Eng × Except Err Unit) : Prop :=
  ∃ new, Grew key i new e p.1 ∧ new.length ≤ n ∧ (p.2 = .ok () → ¬late → new.length = n) ∧
    (∀ err, p.2 = .error err → err.isAct = true → new = []) ∧ ∀ v ∈ new, v = outputsOf p.1 i o

theorem postStore_resumes (e : Eng) {I : Inst} (hI : e.insts[i]? = some I) (ob : Obj) (td : TaskDef) (A : Prop) :
    Resumption ("_A." ++ id) i o (perAttempt id ob.task td) A e (postStore env e i o ob td) := by
  unfold Eng.postStore
  obtain ⟨new, h1, h2, h3, h4, h5⟩ := results_stored (env := env) (id := id) (o := o) e hI ob td
    (k := fun e1 => if td.accumulates then e1.accumulate i o ob.task.id else outputMapper env e1 i o td.name)
    fun e1 I1 hI1 => by
      split
      · rename_i ha
        exact accumulate_stored e1 hI1 ob.task ha
      · rename_i ha
        exact stored_none (by simpa using ha) (outputMapper_kept hu _ _).1 rfl
  revert h1 h2 h3 h4 h5
  generalize Eng.andThen (outputInterceptor env e i o ob td) _ = q
  obtain ⟨e1, x⟩ := q
  intro h1 h2 h3 h4 h5
  cases x with
  | none => exact ⟨new, h1, h2, fun _ _ => h3 rfl, fun _ h => (nomatch h), h5⟩
  | some err => exact ⟨new, h1, h2, (nomatch ·), fun er h => by cases h; exact h4 err rfl, h5⟩

omit hu in
theorem KeptAttr.resumeError {n : Nat} {A : Prop} {e e' : Eng} (h : KeptAttr key e e') (err : Err) : Resumption key i o n A e (e', .error err) :=
  ⟨[], h.grew, Nat.zero_le _, (nomatch ·), fun _ _ _ => rfl, fun _ hv => nomatch hv⟩

theorem postOnce_resumes {e : Eng} {t : TaskRef} {d : Def} (hs : Stands i o t d e) {td : TaskDef} (htd : d.task? t = some td) :
    Resumption ("_A." ++ id) i o (perAttempt id t td) (Lingers env td i o) e (postOnce env e i o) := by
  obtain ⟨ob, ho, rfl, h2⟩ := hs.taskDef
  obtain ⟨I, hI, _⟩ := obj?_some ho
  unfold Eng.postOnce
  rw [ho]
  dsimp only
  rw [h2, htd]
  dsimp only
  have h0 : KeptAttr ("_A." ++ id) e (e.modI i (fun I => { I with trace := .postAct o ob.task :: I.trace })) := .same _ fun _ => rfl
  have h1 : KeptAttr ("_A." ++ id) e (callPost env (e.modI i (fun I => { I with trace := .postAct o ob.task :: I.trace })) i o td).1 ∧
      (¬Lingers env td i o → ∀ b, (callPost env (e.modI i (fun I => { I with trace := .postAct o ob.task :: I.trace })) i o td).2 = .ok b → b = true) := by
    have hact := h0.trans (KeptAttr.applyActOut _ i o _ (hu.post (e.modI i (fun I => { I with trace := .postAct o ob.task :: I.trace })) i o))
    unfold Eng.callPost
    split
    · rename_i ha
      dsimp only
      split
      · exact ⟨hact, fun _ b hb => by cases hb; rfl⟩
      · rename_i hw
        exact ⟨hact, fun h => absurd ⟨ha, _, hw⟩ h⟩
      · exact ⟨hact, fun _ b hb => nomatch hb⟩
      · exact ⟨hact, fun _ b hb => nomatch hb⟩
    · exact ⟨h0, fun _ b hb => by cases hb; rfl⟩
  generalize callPost env (e.modI i (fun I => { I with trace := .postAct o ob.task :: I.trace })) i o td = q at h1
  obtain ⟨e1, x⟩ := q
  obtain ⟨h1, h3⟩ := h1
  cases x with
  | error err => exact h1.resumeError err
  | ok b =>
    dsimp only
    split
    · exact h1.resumeError _
    · cases b with
      | false =>
        exact ⟨[], h1.grew, Nat.zero_le _, fun _ ha => (nomatch h3 ha false rfl), fun _ h => (nomatch h), fun _ hv => nomatch hv⟩
      | true =>
        obtain ⟨I1, hI1, _⟩ := h1 i I hI
        obtain ⟨new, a, b⟩ := postStore_resumes (o := o) hu e1 hI1 ob td (Lingers env td i o)
        exact ⟨new, h1.then a, b⟩

/-! ### Behaviors -/

/-- What an evaluation adds: at most `n` entries; exactly `n` if the task is to be evaluated again or if it is done and no
iterator; none if it waits or if it is an iterator without further elements. -/
structure AddsEval (key : String) (i o n : Nat) (td : TaskDef) (e : Eng) (p : Eng × EvalOut) (new : List Val) : Prop where
  grew : Grew key i new e p.1
  most : new.length ≤ n
  again : p.2 = .res .again → new.length = n
  done : p.2 = .res .done → td.kind ≠ .iterator → new.length = n
  over : p.2 = .res .done → td.kind = .iterator → new = []
  wait : p.2 = .res .wait → new = []
  outs : ∀ v ∈ new, v = outputsOf p.1 i o

omit hu in
theorem AddsEval.nothing {n : Nat} {td : TaskDef} {e e' : Eng} {r : EvalOut} (h : KeptAttr key e e') (hr : r ≠ .res .again)
    (hd : r = .res .done → td.kind = .iterator) : AddsEval key i o n td e (e', r) [] :=
  ⟨h.grew, Nat.zero_le _, fun h => absurd h hr, fun h hk => absurd (hd h) hk, fun _ _ => rfl, fun _ => rfl, fun _ hv => nomatch hv⟩

omit hu in
theorem dwCheck_adds {n : Nat} {td : TaskDef} (hk : td.kind = .doWhile) {e e1 : Eng} {new : List Val} (h1 : Grew key i new e e1)
    (hl : new.length = n) (ho : ∀ v ∈ new, v = outputsOf e1 i o) : AddsEval key i o n td e (dwCheck env e1 i o td) new := by
  have h2 : KeptAttr key e1 (e1.dwUpdate i o) := .modO _
  have h3 : outputsOf (e1.dwUpdate i o) i o = outputsOf e1 i o := outputsOf_modO (fun x => { x with dwIndex := some ((x.dwIndex.getD 0) + 1) }) (fun _ => rfl) _
  refine ⟨h1.then h2, Nat.le_of_eq hl, fun _ => hl, fun _ _ => hl, fun _ h => (by rw [hk] at h; cases h), fun h => ?_, fun v hv => (ho v hv).trans h3.symm⟩
  unfold Eng.dwCheck at h
  dsimp only at h
  split at h
  · split at h <;> cases h
  · cases h

theorem evalKind_adds {t : TaskRef} {d : Def} {td : TaskDef} (htd : d.task? t = some td) {e : Eng} (hs : Stands i o t d e) :
    ∃ new, AddsEval ("_A." ++ id) i o (perAttempt id t td) td e (evalKind env e i o td) new := by
  unfold Eng.evalKind
  cases hk : td.kind with
  | basic =>
    have h1 := evalActivity_attempt (env := env) hu htd hs
    dsimp only
    unfold Eng.evalBasic
    generalize evalActivity env e i o = q at h1
    obtain ⟨e1, x⟩ := q
    obtain ⟨new, a, b, c, d1, e2, f⟩ := h1
    cases x with
    | error err => exact ⟨new, a, b, (nomatch ·), (nomatch ·), (nomatch ·), (nomatch ·), f⟩
    | ok v =>
      cases v with
      | true => exact ⟨new, a, b, (nomatch ·), fun _ _ => c rfl, fun _ h => (by rw [hk] at h; cases h), (nomatch ·), f⟩
      | false => exact ⟨new, a, b, (nomatch ·), (nomatch ·), (nomatch ·), fun _ => d1 rfl, f⟩
  | iterator =>
    dsimp only
    unfold Eng.evalIter
    split
    · exact ⟨[], .nothing (.refl e) (nomatch ·) (nomatch ·)⟩
    · exact ⟨[], .nothing (.refl e) (nomatch ·) (fun _ => hk)⟩
    · rename_i it hit
      dsimp only
      split
      · exact ⟨[], .nothing (.modO _) (nomatch ·) (fun _ => hk)⟩
      · split
        · exact ⟨[], .nothing (.refl e) (nomatch ·) (nomatch ·)⟩
        · rename_i v hv
          have h0 : KeptAttr ("_A." ++ id) e (e.modI i (fun I => I.modO o (fun x =>
            { x with iter := some it.next.1, iteration := some (it.next.1.key, v, it.next.1.current) }))) := .modO _
          have hs1 : Stands i o t d (e.modI i (fun I => I.modO o (fun x =>
            { x with iter := some it.next.1, iteration := some (it.next.1.key, v, it.next.1.current) }))) := by
            obtain ⟨I, ob, hI, ho, ht, hd⟩ := hs
            exact ⟨_, { ob with iter := some it.next.1, iteration := some (it.next.1.key, v, it.next.1.current) }, modI_self hI _, by simp [Inst.modO, ho], ht, hd⟩
          have h1 := evalActivity_attempt (env := env) hu htd hs1
          generalize evalActivity env _ i o = q at h1
          obtain ⟨e1, x⟩ := q
          obtain ⟨new, a, b, c, d1, e2, f⟩ := h1
          cases x with
          | error err =>
            exact ⟨new, h0.then (a.then (.setStatus e1 i o .failed)), b, (nomatch ·), (nomatch ·), (nomatch ·), (nomatch ·),
              fun v hv => (f v hv).trans (outputsOf_setStatus e1 .failed).symm⟩
          | ok v =>
            cases v with
            | true => exact ⟨new, h0.then a, b, fun _ => c rfl, (nomatch ·), (nomatch ·), (nomatch ·), f⟩
            | false =>
              exact ⟨new, h0.then (a.then (.setStatus e1 i o .waiting)), b, (nomatch ·), (nomatch ·), (nomatch ·), fun _ => d1 rfl,
                fun v hv => (f v hv).trans (outputsOf_setStatus e1 .waiting).symm⟩
  | doWhile =>
    dsimp only
    unfold Eng.evalDoWhile
    have h0 : KeptAttr ("_A." ++ id) e (e.dwInit i o) := .modO _
    have h1 := evalActivity_attempt (env := env) hu htd (hs.evals (env := env) (s := none) (.dwInit e))
    generalize evalActivity env (e.dwInit i o) i o = q at h1
    obtain ⟨e1, x⟩ := q
    obtain ⟨new, a, b, c, d1, e2, f⟩ := h1
    cases x with
    | error err =>
      exact ⟨new, h0.then (a.then (.setStatus e1 i o .failed)), b, (nomatch ·), (nomatch ·), (nomatch ·), (nomatch ·),
        fun v hv => (f v hv).trans (outputsOf_setStatus e1 .failed).symm⟩
    | ok v =>
      cases v with
      | true => exact ⟨new, dwCheck_adds hk (h0.then a) (c rfl) f⟩
      | false =>
        exact ⟨new, h0.then (a.then (.setStatus e1 i o .waiting)), b, (nomatch ·), (nomatch ·), (nomatch ·), fun _ => d1 rfl,
          fun v hv => (f v hv).trans (outputsOf_setStatus e1 .waiting).symm⟩

/-- The same for resuming a waiting task. -/
structure AddsPost (env : Env) (key : String) (i o n : Nat) (td : TaskDef) (e : Eng) (p : Eng × EvalOut) (new : List Val) : Prop where
  grew : Grew key i new e p.1
  most : new.length ≤ n
  fin : (p.2 = .res .again ∨ p.2 = .res .done) → ¬Lingers env td i o → new.length = n
  wait : p.2 = .res .wait → new = []
  outs : ∀ v ∈ new, v = outputsOf p.1 i o

theorem postKind_adds {t : TaskRef} {d : Def} {td : TaskDef} (htd : d.task? t = some td) {e : Eng} (hs : Stands i o t d e) :
    ∃ new, AddsPost env ("_A." ++ id) i o (perAttempt id t td) td e (postKind env e i o td) new := by
  unfold Eng.postKind
  cases hk : td.kind with
  | basic =>
    have h1 := postOnce_resumes (env := env) hu hs htd
    have hs1 := hs.evals (s := none) (.postOnce (env := env) e)
    dsimp only
    unfold Eng.postBasic
    generalize postOnce env e i o = q at h1 hs1
    obtain ⟨e1, x⟩ := q
    obtain ⟨new, a, b, c, d1, f⟩ := h1
    cases x with
    | ok u => exact ⟨new, a, b, fun _ => c rfl, (nomatch ·), f⟩
    | error err =>
      dsimp only
      split
      · rename_i hr
        have hr1 : err.isAct = true := by
          cases hx : err.isAct with
          | true => rfl
          | false => rw [hx] at hr; cases hr
        have := d1 err rfl hr1
        subst this
        have h4 : KeptAttr ("_A." ++ id) e1 (getRetry env e1 i o).1 := getRetry_kept _
        have hs3 := hs1.evals (env := env) (s := none) (.getRetry e1)
        generalize getRetry env e1 i o = q at h4 hs3
        obtain ⟨e2, y⟩ := q
        cases y with
        | error rerr => exact ⟨[], a.then h4, Nat.zero_le _, (by rintro (h | h) <;> cases h), (nomatch ·), fun _ hv => nomatch hv⟩
        | ok n =>
          dsimp only
          split
          · have h5 := retryFrom_attempt (env := env) hu htd (n.toNat - 1) hs3
            generalize retryFrom env (n.toNat - 1) e2 i o = q at h5
            obtain ⟨e3, z⟩ := q
            obtain ⟨new', a', b', c', d', e', f'⟩ := h5
            have g := (a.then h4).trans a'
            cases z with
            | error err' => exact ⟨new', g, b', (by rintro (h | h) <;> cases h), (nomatch ·), f'⟩
            | ok v =>
              cases v with
              | true => exact ⟨new', g, b', fun _ _ => c' rfl, (nomatch ·), f'⟩
              | false => exact ⟨new', g, b', (by rintro (h | h) <;> cases h), fun _ => d' rfl, f'⟩
          · exact ⟨[], a.then h4, Nat.zero_le _, (by rintro (h | h) <;> cases h), (nomatch ·), fun _ hv => nomatch hv⟩
      · exact ⟨new, a, b, (by rintro (h | h) <;> cases h), (nomatch ·), f⟩
  | iterator =>
    have h1 := postOnce_resumes (env := env) hu hs htd
    dsimp only
    unfold Eng.postIter
    generalize postOnce env e i o = q at h1
    obtain ⟨e1, x⟩ := q
    obtain ⟨new, a, b, c, d1, f⟩ := h1
    cases x with
    | error err =>
      exact ⟨new, a.then (.setStatus e1 i o .failed), b, (by rintro (h | h) <;> cases h), (nomatch ·),
        fun v hv => (f v hv).trans (outputsOf_setStatus e1 .failed).symm⟩
    | ok u =>
      dsimp only
      split
      · exact ⟨new, a.then (.setStatus e1 i o .done), b, (by rintro (h | h) <;> cases h), (nomatch ·),
          fun v hv => (f v hv).trans (outputsOf_setStatus e1 .done).symm⟩
      · refine ⟨new, a.then (.setStatus e1 i o .done), b, fun _ => c rfl, fun h => ?_,
          fun v hv => (f v hv).trans (outputsOf_setStatus e1 .done).symm⟩
        dsimp only at h
        split at h <;> cases h
  | doWhile =>
    have h0 : KeptAttr ("_A." ++ id) e (e.dwInit i o) := .modO _
    have h1 := postOnce_resumes (env := env) hu (hs.evals (env := env) (s := none) (.dwInit e)) htd
    dsimp only
    unfold Eng.postDoWhile
    generalize postOnce env (e.dwInit i o) i o = q at h1
    obtain ⟨e1, x⟩ := q
    obtain ⟨new, a, b, c, d1, f⟩ := h1
    cases x with
    | error err =>
      exact ⟨new, h0.then (a.then (.setStatus e1 i o .failed)), b, (by rintro (h | h) <;> cases h), (nomatch ·),
        fun v hv => (f v hv).trans (outputsOf_setStatus e1 .failed).symm⟩
    | ok u =>
      have h2 := dwCheck_adds (env := env) (key := "_A." ++ id) hk (h0.then (a.then (.setStatus e1 i o .done))) rfl
        fun v hv => (f v hv).trans (outputsOf_setStatus e1 .done).symm
      exact ⟨new, h2.grew, b, fun _ => c rfl, h2.wait, h2.outs⟩

/-! ### Steps -/

omit hu in
theorem setFlowStatus_attrs (I : Inst) (s : FlowStatus) : (I.setFlowStatus s).attrs = I.attrs := by
  unfold Inst.setFlowStatus; first | rfl | (split <;> rfl)

omit hu in
theorem failHost_kept (e : Eng) (j : Nat) (err : Err) : KeptAttr key e (e.failHost j err) := by
  unfold Eng.failHost
  split
  · exact .refl e
  · split
    · exact .refl e
    · rename_i hi ho _
      have h2 : KeptAttr key e (e.modI hi (fun H => H.modO ho (fun x => { x with returnError := some err }))) := .modO _
      exact h2.trans (.ctl rfl)

omit hu in
theorem appendErrorData_kept (e : Eng) (j : Nat) (t : TaskId) (err : Err) : KeptAttr ("_A." ++ id) e (e.appendErrorData j t err) :=
  .mod _ fun _ _ => (AMap.get?_set_ne _ _ (errKey_ne _ _)).trans (AMap.get?_set_ne _ _ (errKey_ne' _))

omit hu in
theorem globalError_kept (e : Eng) (j : Nat) (err : Err) : KeptAttr key e (e.globalError j err) := by
  unfold Eng.globalError
  split
  · exact .refl e
  · rename_i I hI
    split
    · exact .same _ fun J => setFlowStatus_attrs J _
    · have h1 : KeptAttr key e (e.modI j (fun J => { J with handling := true })) := .same _ fun _ => rfl
      dsimp only
      split
      · have h2 := h1.trans (KeptAttr.same (i := 0) (fun J => J.clearTasks) fun J => (Calm.clear J).attrs)
        have h3 := h2.trans (KeptAttr.same (i := j) (fun J => { J with trace := .ehStart :: J.trace }) fun _ => rfl)
        exact h3.trans (.ctl rfl)
      · have h2 := h1.trans (KeptAttr.same (i := j) (fun J => J.setFlowStatus .failed) fun J => setFlowStatus_attrs J _)
        split
        · exact h2.trans (.same _ fun _ => rfl)
        · exact h2.trans (failHost_kept _ _ _)

omit hu in
theorem complete_kept (e : Eng) (j : Nat) : KeptAttr key e (e.complete j) := by
  unfold Eng.complete
  split
  · exact .refl e
  · rename_i I hI
    have h1 : KeptAttr key e (e.modI j (fun J => J.setFlowStatus .completed)) := .same _ fun J => setFlowStatus_attrs J _
    dsimp only
    split
    · exact h1
    · split
      · exact h1.trans (.ctl rfl)
      · rename_i hi ho _
        have h2 := h1.trans (KeptAttr.modO (i := hi) (o := ho) (fun x => { x with outputs := I.returnData, returnError := none }))
        exact h2.trans (.ctl rfl)

omit hu in
theorem finishTask_kept (e : Eng) (j : Nat) (t : TaskRef) (b : Bool) (es : List TaskEntry) (rest : List Frame) :
    KeptAttr key e (e.finishTask j t b es rest) := by
  unfold Eng.finishTask
  split
  · exact .refl e
  · split
    · exact (complete_kept e j).trans (.ctl rfl)
    · exact .ctl rfl

omit hu in
theorem handleResult_kept (e : Eng) (t : TaskRef) (name : String) (r : EvalOut) : KeptAttr ("_A." ++ id) e (handleResult env e i o t name r) := by
  have hdone : KeptAttr ("_A." ++ id) e (taskDone env e i o t) := by
    unfold Eng.taskDone
    split
    · exact .refl e
    · rename_i I hI
      have hc := (Calm.doneTask env.prio (env.link e i) I o t).attrs
      generalize I.doneTask env.prio (env.link e i) o t = q at hc
      obtain ⟨I1, x⟩ := q
      have h1 : KeptAttr ("_A." ++ id) e (e.modI i (fun _ => I1)) := .const hI hc
      cases x with
      | error m => exact (h1.trans (appendErrorData_kept _ _ _ _)).trans (globalError_kept _ _ _)
      | ok es => exact h1.trans (finishTask_kept _ _ _ _ _ _)
  unfold Eng.handleResult
  split
  · rename_i err
    unfold Eng.taskError
    split
    · exact .refl e
    · rename_i I hI
      have hc := (Calm.errorTask I o t).attrs
      generalize I.errorTask o t = q at hc
      obtain ⟨I1, x⟩ := q
      have h1 : KeptAttr ("_A." ++ id) e (e.modI i (fun _ => I1)) := .const hI hc
      cases x with
      | some es =>
        have h2 : KeptAttr ("_A." ++ id) e (e.modI i (fun _ => I1.setValue ("_E." ++ t.id) (errorObj t.id err))) :=
          .mod _ fun J hJ => by
            rw [hI] at hJ; cases hJ
            exact (AMap.get?_set_ne _ _ (errKey_ne _ _)).trans (by rw [hc])
        exact h2.trans (.ctl rfl)
      | none =>
        dsimp only
        split
        · have h2 := h1.trans (KeptAttr.same (i := i) (fun J => J.setFlowStatus .failed) fun J => setFlowStatus_attrs J _)
          split
          · exact h2.trans (appendErrorData_kept _ _ _ _)
          · exact h2.trans (failHost_kept _ _ _)
        · exact (h1.trans (appendErrorData_kept _ _ _ _)).trans (globalError_kept _ _ _)
  · exact hdone
  · exact hdone
  · exact .setStatus _ _ _ _
  · exact .setStatus _ _ _ _
  · exact .ctl rfl
  · split
    · exact .refl e
    · split
      · exact .refl e
      · exact (appendErrorData_kept _ _ _ _).trans (globalError_kept _ _ _)

omit hu in
/-- A step that evaluates no task. -/
theorem step_kept {e : Eng} (h : ∀ w, Spec.next env e = some w → outcome env (afterPop env e w) w.inst w.obj = none) :
    KeptAttr key e (e.step env) := by
  cases hn : Spec.next env e with
  | some w =>
    rw [step_next hn, exec_none (h w hn)]
    exact .ctl rfl
  | none =>
    cases hs : e.stack with
    | nil =>
      by_cases hl : 0 < e.insts.length
      · rw [step_idle hs hn hl]
        exact .ctl rfl
      · intro j I hI
        have := (List.getElem?_eq_some_iff.mp hI).1
        omega
    | cons f rest =>
      unfold Eng.step
      rw [hs]
      dsimp only
      cases f with
      | release t =>
        have h1 : KeptAttr key e (e.modI e.cur (fun I => I.release t)) := .same _ fun I => (Calm.release I t).attrs
        exact h1.trans (.ctl rfl)
      | enter es =>
        cases es with
        | nil => exact .ctl rfl
        | cons x xs =>
          dsimp only
          unfold Eng.enterEntry
          split
          · exact .ctl rfl
          · rename_i I hI
            have h1 : KeptAttr key e (e.modI e.cur (fun _ => (I.enterTask x.task).1)) := .const hI (Calm.enterTask I _).attrs
            dsimp only
            split
            · exact h1.trans (.ctl rfl)
            · split
              · exact h1.trans (.ctl rfl)
              · exact h1.trans (.ctl rfl)
            · refine h1.trans ?_
              unfold Eng.taskSkipped
              split
              · exact .refl _
              · rename_i J hJ
                split
                · exact .ctl rfl
                · rename_i ob hob
                  have hc := (Calm.skipTask J (I.enterTask x.task).2.1 ob.task).attrs
                  generalize J.skipTask (I.enterTask x.task).2.1 ob.task = q at hc
                  obtain ⟨J1, es⟩ := q
                  exact (KeptAttr.const hJ hc).trans (finishTask_kept _ _ _ _ _ _)

omit hu in
theorem evaluates_unique {e e1 e2 : Eng} {i1 o1 i2 o2 : Nat} {t1 t2 : TaskRef} {r1 r2 : EvalOut} (h1 : Evaluates env e i1 o1 t1 e1 r1)
    (h2 : Evaluates env e i2 o2 t2 e2 r2) : i1 = i2 ∧ o1 = o2 ∧ t1 = t2 ∧ e1 = e2 ∧ r1 = r2 := by
  obtain ⟨⟨w, a, rfl, rfl, b⟩, c⟩ := h1
  obtain ⟨⟨w', a', rfl, rfl, b'⟩, c'⟩ := h2
  rw [a] at a'; cases a'
  rw [b] at b'; cases b'
  rw [c] at c'; cases c'
  exact ⟨rfl, rfl, rfl, rfl, rfl⟩

omit hu in
theorem evaluates_obj {e e' : Eng} {t : TaskRef} {r : EvalOut} (h : Evaluates env e i o t e' r) :
    ∃ ob td, e.obj? i o = some ob ∧ ob.task = t ∧ e.taskDef? i t = some td := by
  obtain ⟨⟨w, a, rfl, rfl, b⟩, c⟩ := h
  have c1 : ∃ ob, e.obj? w.inst w.obj = some ob ∧ ob.task = t := by
    cases hx : e.obj? w.inst w.obj with
    | none => rw [hx] at c; cases c
    | some ob => rw [hx] at c; cases c; exact ⟨ob, rfl, rfl⟩
  obtain ⟨ob, ho, ht⟩ := c1
  have ho' : (afterPop env e w).obj? w.inst w.obj = some ob := ho
  obtain ⟨td, h2, _⟩ := exec_outcome ho' b
  exact ⟨ob, td, ho, ht, by rw [← ht]; exact h2⟩

omit hu in
theorem accumulates_iff (td : TaskDef) : td.accumulates = true ↔ Accumulating td := by
  unfold TaskDef.accumulates Spec.Accumulating
  cases td.loop with
  | none => exact ⟨(nomatch ·), fun ⟨_, h, _⟩ => nomatch h⟩
  | some c => exact ⟨fun h => ⟨c, rfl, h⟩, fun ⟨_, h, h2⟩ => by cases h; exact h2⟩

theorem step_contributes {e : Eng} (hl : i < e.insts.length) :
    ∃ new, Appended (attrAt e i ("_A." ++ id)) (attrAt (e.step env) i ("_A." ++ id)) new ∧ Contributes env e i id new ∧
      i < (e.step env).insts.length := by
  obtain ⟨I, hI⟩ : ∃ I, e.insts[i]? = some I := ⟨_, List.getElem?_eq_getElem hl⟩
  have hat : attrAt e i ("_A." ++ id) = I.attrs.get? ("_A." ++ id) := by unfold Spec.attrAt; rw [hI]; rfl
  by_cases hev : ∃ i' o t e' r, Evaluates env e i' o t e' r
  · obtain ⟨i', o, t, e', r, hev⟩ := hev
    obtain ⟨ob, td, ho, ht, htd⟩ := evaluates_obj hev
    subst ht
    obtain ⟨I0, hI0, hob⟩ := obj?_some ho
    obtain ⟨w, hw, hwi, hwo, hwait, hnew⟩ := evaluates_eval hev ho htd
    obtain ⟨⟨name, hstep⟩, _⟩ := evaluates_step hev
    have hst : Stands i' o ob.task I0.defn (afterPop env e w) := ⟨I0, ob, hI0, hob, rfl, rfl⟩
    have htd' : I0.defn.task? ob.task = some td := by
      unfold Eng.taskDef? at htd; rw [hI0] at htd; exact htd
    have hpop : KeptAttr ("_A." ++ id) e (afterPop env e w) := .ctl rfl
    obtain ⟨new, hg, hm, hv, hf, hn⟩ : ∃ new, Grew ("_A." ++ id) i' new e e' ∧ new.length ≤ perAttempt id ob.task td ∧
        (∀ v ∈ new, v = outputsOf e' i' o) ∧ (FinishesIteration env td e i' o r → new.length = perAttempt id ob.task td) ∧
        (NoIteration td e i' o r → new = []) := by
      by_cases hs : ob.status = .waiting
      · obtain ⟨new, h⟩ := postKind_adds (env := env) hu htd' hst
        rw [← hwait hs] at h
        refine ⟨new, hpop.then h.grew, h.most, h.outs, fun hfin => ?_, fun hno => ?_⟩
        · obtain ⟨ob', ho', h1, _⟩ := hfin
          rw [ho] at ho'; cases ho'
          exact h.fin (h1 hs).1 (h1 hs).2
        · rcases hno with hno | ⟨_, _, ob', ho', h2⟩
          · exact h.wait hno
          · rw [ho] at ho'; cases ho'; exact absurd hs h2
      · obtain ⟨new, h⟩ := evalKind_adds (env := env) hu htd' hst
        rw [← hnew hs] at h
        refine ⟨new, hpop.then h.grew, h.most, h.outs, fun hfin => ?_, fun hno => ?_⟩
        · obtain ⟨ob', ho', _, h1⟩ := hfin
          rw [ho] at ho'; cases ho'
          rcases h1 hs with h2 | ⟨h2, h3⟩
          · exact h.again h2
          · exact h.done h2 h3
        · rcases hno with hno | ⟨h1, h2, _⟩
          · exact h.wait hno
          · exact h.over h1 h2
    have hg2 := hg.then (handleResult_kept (env := env) (i := i') (o := o) (id := id) e' ob.task name r)
    rw [← hstep] at hg2
    obtain ⟨I', hI', hne, heq⟩ := hg2 i I hI
    have hat' : attrAt (e.step env) i ("_A." ++ id) = I'.attrs.get? ("_A." ++ id) := by unfold Spec.attrAt; rw [hI']; rfl
    by_cases hii : i = i'
    · subst hii
      have h1 : new.length ≤ 1 := Nat.le_trans hm (by unfold perAttempt; split <;> omega)
      have hor : new = [] ∨ new = [outputsOf e' i o] := by
        match new, hv, h1 with
        | [], _, _ => exact .inl rfl
        | [v], hv, _ => exact .inr (by rw [hv v (by simp)])
      refine ⟨new, by rw [hat, hat']; exact heq rfl, ⟨fun h => ?_, fun o2 t2 e2 r2 h2 => ?_, fun o2 t2 e2 r2 td2 h2 hid htd2 hacc hfin => ?_,
        fun o2 t2 e2 r2 td2 h2 htd2 hno => ?_⟩, (List.getElem?_eq_some_iff.mp hI').1⟩
      · have hid := h o ob.task e' r hev
        have : perAttempt id ob.task td = 0 := if_neg fun h => hid h.2
        rw [this] at hm
        exact List.eq_nil_of_length_eq_zero (by omega)
      · obtain ⟨_, rfl, _, rfl, _⟩ := evaluates_unique hev h2
        exact hor
      · obtain ⟨_, rfl, rfl, rfl, rfl⟩ := evaluates_unique hev h2
        rw [htd] at htd2; cases htd2
        have h3 := hf hfin
        have : perAttempt id ob.task td = 1 := if_pos ⟨(accumulates_iff td).2 hacc, hid⟩
        rw [this] at h3
        rcases hor with rfl | h4
        · cases h3
        · exact h4
      · obtain ⟨_, rfl, rfl, rfl, rfl⟩ := evaluates_unique hev h2
        rw [htd] at htd2; cases htd2
        rcases hno with hno | hno
        · have : perAttempt id ob.task td = 0 := if_neg fun h => hno ((accumulates_iff td).1 h.1)
          rw [this] at hm
          exact List.eq_nil_of_length_eq_zero (by omega)
        · exact hn hno
    · have hno : ∀ {o2 t2 e2 r2}, ¬Evaluates env e i o2 t2 e2 r2 := fun h2 => hii (evaluates_unique hev h2).1.symm
      exact ⟨[], .inl ⟨rfl, by rw [hat, hat']; exact hne hii⟩,
        ⟨fun _ => rfl, fun _ _ _ _ h => absurd h hno, fun _ _ _ _ _ h => absurd h hno, fun _ _ _ _ _ h => absurd h hno⟩,
        (List.getElem?_eq_some_iff.mp hI').1⟩
  · have hk : KeptAttr ("_A." ++ id) e (e.step env) := by
      refine step_kept fun w hw => ?_
      cases hout : outcome env (afterPop env e w) w.inst w.obj with
      | none => rfl
      | some p =>
        exfalso
        obtain ⟨e', r⟩ := p
        cases ho : e.obj? w.inst w.obj with
        | none =>
          have ho' : (afterPop env e w).obj? w.inst w.obj = none := ho
          unfold Spec.outcome at hout
          rw [ho'] at hout
          cases hout
        | some ob => exact hev ⟨w.inst, w.obj, ob.task, e', r, ⟨⟨w, hw, rfl, rfl, hout⟩, by rw [ho]; rfl⟩⟩
    obtain ⟨I', hI', h1⟩ := hk i I hI
    have hat' : attrAt (e.step env) i ("_A." ++ id) = I'.attrs.get? ("_A." ++ id) := by unfold Spec.attrAt; rw [hI']; rfl
    have hno : ∀ {o2 t2 e2 r2}, ¬Evaluates env e i o2 t2 e2 r2 := fun h2 => hev ⟨_, _, _, _, _, h2⟩
    exact ⟨[], .inl ⟨rfl, by rw [hat, hat']; exact h1⟩,
      ⟨fun _ => rfl, fun _ _ _ _ h => absurd h hno, fun _ _ _ _ _ h => absurd h hno, fun _ _ _ _ _ h => absurd h hno⟩,
        (List.getElem?_eq_some_iff.mp hI').1⟩

end Eng
end Flow
