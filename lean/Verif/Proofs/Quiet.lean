import Verif.Proofs.Loops
import Verif.Spec.Below

/-
A set of flow instances that contains the host of each of its members is closed under the steps of its members: they
schedule no work outside of the set.
-/

namespace Flow
open Spec

namespace Eng

variable {env : Env} {T : Nat → Prop}

/-- Hosts of members are members, and so are all instances to come. -/
def Closed (T : Nat → Prop) (e : Eng) : Prop :=
  (∀ (j h o : Nat) (J : Inst), e.insts[j]? = some J → T j → J.host = some (h, o) → T h) ∧ ∀ j, e.insts.length ≤ j → T j

/-- New work and the point of control belong to members of the set; other instances, except possibly the top-level one, do
not change. -/
def Keep (T : Nat → Prop) (e e' : Eng) : Prop :=
  Closed T e → Closed T e' ∧ (∀ w ∈ e'.queue, w ∈ e.queue ∨ T w.inst) ∧ ((e'.stack = e.stack ∧ e'.cur = e.cur) ∨ T e'.cur) ∧
    (∀ (j : Nat) (J : Inst), e.insts[j]? = some J → ∃ J' : Inst, e'.insts[j]? = some J' ∧ J'.host = J.host) ∧
    (∀ j : Nat, ¬ T j → j ≠ 0 → e'.insts[j]? = e.insts[j]?) ∧
    ∀ p : WorkItem → Bool, (∀ w, T w.inst → p w = false) → e'.queue.countP p = e.queue.countP p

theorem Keep.refl (e : Eng) : Keep T e e := fun h => ⟨h, fun _ hw => Or.inl hw, Or.inl ⟨rfl, rfl⟩, fun _ J h => ⟨J, h, rfl⟩, fun _ _ _ => rfl, fun _ _ => rfl⟩

theorem Keep.trans {e f g : Eng} (h1 : Keep T e f) (h2 : Keep T f g) : Keep T e g := by
  intro hc
  obtain ⟨a1, a2, a3, a4, a5, a6⟩ := h1 hc
  obtain ⟨b1, b2, b3, b4, b5, b6⟩ := h2 a1
  refine ⟨b1, fun w hw => ?_, ?_, fun j J hJ => ?_, fun j h h0 => (b5 j h h0).trans (a5 j h h0), fun p hp => (b6 p hp).trans (a6 p hp)⟩
  · rcases b2 w hw with h | h
    · exact a2 w h
    · exact Or.inr h
  · rcases b3 with h | h
    · rcases a3 with h' | h'
      · exact Or.inl ⟨h.1.trans h'.1, h.2.trans h'.2⟩
      · right; rw [h.2]; exact h'
    · exact Or.inr h
  · obtain ⟨J1, h3, h4⟩ := a4 j J hJ
    obtain ⟨J2, h5, h6⟩ := b4 j J1 h3
    exact ⟨J2, h5, h6.trans h4⟩

theorem Keep.modI (e : Eng) (i : Nat) (f : Inst → Inst) (hT : T i ∨ i = 0) (h : ∀ I, e.insts[i]? = some I → (f I).host = I.host) : Keep T e (e.modI i f) := by
  have hh : ∀ (j : Nat) (J' : Inst), (e.modI i f).insts[j]? = some J' → ∃ J, e.insts[j]? = some J ∧ J.host = J'.host := by
    intro j J' hJ
    rw [modI_getElem?] at hJ
    split at hJ
    · rename_i hk; subst hk
      obtain ⟨J, h1, h2⟩ := Option.map_eq_some_iff.1 hJ
      exact ⟨J, h1, by rw [← h2]; exact (h J h1).symm⟩
    · exact ⟨J', hJ, rfl⟩
  intro hc
  refine ⟨⟨fun j a o J hJ hT ha => ?_, fun j hj => hc.2 j ?_⟩, fun _ hw => Or.inl hw, Or.inl ⟨rfl, rfl⟩, fun j J hJ => ?_,
    fun j hj h0 => modI_ne (e := e) (i := i) (j := j) (fun hc : i = j => hT.elim (fun hx => hj (hc ▸ hx)) (fun hx => h0 (hc ▸ hx))) _, fun _ _ => rfl⟩
  · obtain ⟨J0, h1, h2⟩ := hh j J hJ
    exact hc.1 j a o J0 h1 hT (h2.trans ha)
  · rw [modI_length] at hj; exact hj
  · rw [modI_getElem?]
    split
    · rename_i hk; subst hk
      exact ⟨f J, by rw [hJ]; rfl, h J hJ⟩
    · exact ⟨J, hJ, rfl⟩

theorem Keep.schedule (e : Eng) (i o : Nat) (h : T i) : Keep T e (e.schedule i o) := by
  intro hc
  refine ⟨hc, fun w hw => ?_, Or.inl ⟨rfl, rfl⟩, fun j J hJ => ⟨J, hJ, rfl⟩, fun _ _ _ => rfl, fun p hp => ?_⟩
  · simp only [Eng.schedule, List.mem_append, List.mem_singleton] at hw
    rcases hw with hw | hw
    · exact Or.inl hw
    · subst hw; exact Or.inr h
  · unfold Eng.schedule
    rw [List.countP_append]
    have : p ⟨e.wiCounter + 1, i, o⟩ = false := hp _ h
    simp [this]

theorem Keep.ctl {e e' : Eng} (hi : e'.insts = e.insts) (hq : e'.queue = e.queue) (hc : (e'.stack = e.stack ∧ e'.cur = e.cur) ∨ T e'.cur) : Keep T e e' := by
  intro h
  refine ⟨?_, fun w hw => Or.inl (by rw [← hq]; exact hw), hc, fun j J hJ => ⟨J, by rw [hi]; exact hJ, rfl⟩, fun _ _ _ => by rw [hi], fun _ _ => by rw [hq]⟩
  unfold Closed; rw [hi]; exact h

theorem Keep.enterStart (es : List TaskEntry) (i : Nat) (e : Eng) (h : T i) : Keep T e (enterStart env e i es) := by
  induction es generalizing e with
  | nil => exact .refl _
  | cons x xs ih =>
    unfold Eng.enterStart
    split
    · exact .refl _
    · rename_i I hI
      have hm : Keep T e (e.modI i (fun _ => (I.enterTask x.task).1)) :=
        .modI e i _ (Or.inl h) (fun J hJ => by rw [hI] at hJ; cases hJ; exact (Calm.enterTask I x.task).host)
      dsimp only
      split
      · split
        · exact (hm.trans (.schedule _ _ _ h)).trans (ih _)
        · exact hm
      · exact hm.trans (ih _)

theorem Keep.startInstance (e : Eng) (i : Nat) (ins : AMap String Val) (h : T i) : Keep T e (startInstance env e i ins) := by
  unfold Eng.startInstance
  split
  · exact .refl _
  · rename_i I hI
    refine Keep.trans (Keep.modI e i (fun _ => ({ I with attrs := startAttrs env e I (e.parentOf I) ins } : Inst).setFlowStatus .active) (Or.inl h) (fun J hJ => ?_)) (.enterStart _ _ _ h)
    rw [hI] at hJ; cases hJ; rfl

theorem Keep.newEmbedded (e : Eng) (i o : Nat) (uri : String) (d : Def) (h : T i) : Keep T e (e.newEmbedded i o uri d) := by
  intro hc
  have hlen : (e.newEmbedded i o uri d).insts.length = e.insts.length + 1 := by simp [Eng.newEmbedded]
  refine ⟨⟨fun j a p J hJ hT ha => ?_, fun j hj => hc.2 j (by omega)⟩, fun w hw => Or.inl hw, Or.inl ⟨rfl, rfl⟩, fun j J hJ => ?_,
    fun j hj _ => newEmbedded_getElem? _ _ _ _ _ (Nat.lt_of_not_le fun hc2 => hj (hc.2 j hc2)), fun _ _ => rfl⟩
  · by_cases hj : j < e.insts.length
    · rw [newEmbedded_getElem? _ _ _ _ _ hj] at hJ
      exact hc.1 j a p J hJ hT ha
    · have hj2 : j = e.insts.length := by
        have := (List.getElem?_eq_some_iff.1 hJ).1; omega
      subst hj2
      simp [Eng.newEmbedded] at hJ
      subst hJ
      simp at ha
      rw [← ha.1]; exact h
  · exact ⟨J, by rw [newEmbedded_getElem? _ _ _ _ _ (List.getElem?_eq_some_iff.1 hJ).1]; exact hJ, rfl⟩

theorem Evals.keep {i o : Nat} {s : Option String} {e e' : Eng} (h : Evals env i o s e e') (hT : T i) : Keep T e e' := by
  induction h with
  | refl e => exact .refl e
  | inst e f h => exact .modI e i f (Or.inl hT) (fun I hI => (h I hI).host)
  | reply e r => exact .ctl rfl rfl (Or.inl ⟨rfl, rfl⟩)
  | sub e uri d inputs _ _ _ =>
    intro hc
    exact ((Keep.newEmbedded e i o uri d hT).trans (Keep.startInstance _ _ _ (hc.2 _ (Nat.le_refl _)))) hc
  | trans _ _ ih1 ih2 => exact .trans ih1 ih2

theorem Keep.setStatus (e : Eng) (i o : Nat) (st : TaskStatus) (hT : T i) : Keep T e (e.setStatus i o st) :=
  .modI e i _ (Or.inl hT) (fun I _ => (Calm.setTaskStatus I o st).host)

theorem Keep.hosted {e : Eng} {i : Nat} {I : Inst} (hI : e.insts[i]? = some I) (hT : T i) {h o : Nat} (hh : I.host = some (h, o)) {g : Eng}
    (k : T h → Keep T e g) : Keep T e g := fun hc => k (hc.1 i h o I hI hT hh) hc

theorem Keep.complete (e : Eng) (i : Nat) (hT : T i) : Keep T e (e.complete i) := by
  unfold Eng.complete
  split
  · exact .refl _
  · rename_i I hI
    have h1 : Keep T e (e.modI i (fun J => J.setFlowStatus .completed)) := .modI e i _ (Or.inl hT) (fun _ _ => rfl)
    dsimp only
    split
    · exact h1
    · split
      · exact h1.trans (.ctl rfl rfl (Or.inl ⟨rfl, rfl⟩))
      · rename_i hi ho hh
        refine Keep.hosted hI hT hh fun hTh => ?_
        refine (h1.trans ?_).trans (.ctl rfl rfl (Or.inl ⟨rfl, rfl⟩))
        exact (Keep.modI _ hi (fun H => H.modO ho (fun x => { x with outputs := I.returnData, returnError := none })) (Or.inl hTh) (fun _ _ => rfl)).trans
          (.schedule _ hi ho hTh)

theorem Keep.failHost (e : Eng) (i : Nat) (err : Err) (hT : T i) : Keep T e (e.failHost i err) := by
  unfold Eng.failHost
  split
  · exact .refl _
  · rename_i I hI
    split
    · exact .refl _
    · rename_i hi ho hh
      refine Keep.hosted hI hT hh fun hTh => ?_
      exact (Keep.modI _ hi (fun H => H.modO ho (fun x => { x with returnError := some err })) (Or.inl hTh) (fun _ _ => rfl)).trans
        (.schedule _ hi ho hTh)

theorem Keep.appendErrorData (e : Eng) (i : Nat) (t : TaskId) (err : Err) (hT : T i) : Keep T e (e.appendErrorData i t err) :=
  .modI e i _ (Or.inl hT) (fun _ _ => rfl)

theorem Keep.globalError (e : Eng) (i : Nat) (err : Err) (hT : T i) : Keep T e (e.globalError i err) := by
  unfold Eng.globalError
  split
  · exact .refl _
  · split
    · exact .modI e i _ (Or.inl hT) (fun _ _ => rfl)
    · have h1 : Keep T e (e.modI i (fun J => { J with handling := true })) := .modI e i _ (Or.inl hT) (fun _ _ => rfl)
      dsimp only
      split
      · refine ((h1.trans (.modI _ 0 (fun J => J.clearTasks) (Or.inr rfl) (fun _ _ => rfl))).trans
          (.modI _ i (fun J => { J with trace := .ehStart :: J.trace }) (Or.inl hT) (fun _ _ => rfl))).trans (.ctl rfl rfl (Or.inr hT))
      · have h2 := h1.trans (.modI (T := T) _ i (fun J => J.setFlowStatus .failed) (Or.inl hT) (fun _ _ => rfl))
        split
        · exact h2.trans (.modI _ 0 _ (Or.inr rfl) (fun _ _ => rfl))
        · exact h2.trans (.failHost _ _ _ hT)

theorem Keep.taskError (e : Eng) (i o : Nat) (t : TaskRef) (err : Err) (hT : T i) : Keep T e (e.taskError i o t err) := by
  unfold Eng.taskError
  split
  · exact .refl _
  · rename_i I hI
    have hc := (Calm.errorTask I o t).host
    split
    · rename_i I1 es h1
      rw [h1] at hc
      refine (Keep.modI e i (fun _ => I1.setValue ("_E." ++ t.id) (errorObj t.id err)) (Or.inl hT) (fun J hJ => ?_)).trans (.ctl rfl rfl (Or.inr hT))
      rw [hI] at hJ; cases hJ; exact hc
    · rename_i I1 h1
      rw [h1] at hc
      have hm : Keep T e (e.modI i (fun _ => I1)) := .modI e i _ (Or.inl hT) (fun J hJ => by rw [hI] at hJ; cases hJ; exact hc)
      dsimp only
      split
      · have h2 := hm.trans (.modI (T := T) _ i (fun J => J.setFlowStatus .failed) (Or.inl hT) (fun _ _ => rfl))
        split
        · exact h2.trans (.appendErrorData _ _ _ _ hT)
        · exact h2.trans (.failHost _ _ _ hT)
      · exact (hm.trans (.appendErrorData _ _ _ _ hT)).trans (.globalError _ _ _ hT)

theorem Keep.finishTask (e : Eng) (i : Nat) (t : TaskRef) (n : Bool) (es : List TaskEntry) (rest : List Frame) (hT : T i) :
    Keep T e (e.finishTask i t n es rest) := by
  unfold Eng.finishTask
  split
  · exact .refl _
  · split
    · exact (Keep.complete e i hT).trans (.ctl rfl rfl (Or.inr hT))
    · exact .ctl rfl rfl (Or.inr hT)

theorem Keep.taskDone (e : Eng) (i o : Nat) (t : TaskRef) (hT : T i) : Keep T e (e.taskDone env i o t) := by
  unfold Eng.taskDone
  split
  · exact .refl _
  · rename_i I hI
    have hc := (Calm.doneTask env.prio (env.link e i) I o t).host
    split
    · rename_i I1 m h1
      rw [h1] at hc
      have hm : Keep T e (e.modI i (fun _ => I1)) := .modI e i _ (Or.inl hT) (fun J hJ => by rw [hI] at hJ; cases hJ; exact hc)
      exact (hm.trans (.appendErrorData _ _ _ _ hT)).trans (.globalError _ _ _ hT)
    · rename_i I1 es h1
      rw [h1] at hc
      have hm : Keep T e (e.modI i (fun _ => I1)) := .modI e i _ (Or.inl hT) (fun J hJ => by rw [hI] at hJ; cases hJ; exact hc)
      exact hm.trans (.finishTask _ _ _ _ _ _ hT)

theorem Keep.taskSkipped (e : Eng) (i o : Nat) (rest : List Frame) (hT : T i) (hr : T e.cur) : Keep T e (e.taskSkipped i o rest) := by
  unfold Eng.taskSkipped
  split
  · exact .refl _
  · rename_i I hI
    split
    · exact .ctl rfl rfl (Or.inr hr)
    · rename_i ob _
      have hc := (Calm.skipTask I o ob.task).host
      split
      rename_i I1 es h1
      rw [h1] at hc
      have hm : Keep T e (e.modI i (fun _ => I1)) := .modI e i _ (Or.inl hT) (fun J hJ => by rw [hI] at hJ; cases hJ; exact hc)
      exact hm.trans (.finishTask _ _ _ _ _ _ hT)

theorem Keep.handleResult (e : Eng) (i o : Nat) (t : TaskRef) (name : String) (r : EvalOut) (hT : T i) :
    Keep T e (e.handleResult env i o t name r) := by
  unfold Eng.handleResult
  split
  · exact .taskError _ _ _ _ _ hT
  · exact .taskDone _ _ _ _ hT
  · exact .taskDone _ _ _ _ hT
  · exact .setStatus _ _ _ _ hT
  · exact .setStatus _ _ _ _ hT
  · exact .schedule _ _ _ hT
  · split
    · exact .refl _
    · split
      · exact .refl _
      · exact (Keep.appendErrorData _ _ _ _ hT).trans (.globalError _ _ _ hT)

theorem Keep.exec (e : Eng) (i o : Nat) (hT : T i) : Keep T e (e.exec env i o) := by
  cases h : outcome env e i o with
  | none => rw [exec_none h]; exact .refl _
  | some p =>
    obtain ⟨e', r⟩ := p
    cases ho : e.obj? i o with
    | none => unfold Spec.outcome at h; rw [ho] at h; cases h
    | some ob =>
      obtain ⟨td, _, h2⟩ := exec_outcome ho h
      rw [h2]
      obtain ⟨e1, hev, h1⟩ := outcome_evals h
      refine Keep.trans ?_ (Keep.handleResult _ _ _ _ _ _ hT)
      rcases h1 with h1 | ⟨st, h1⟩
      · subst h1; exact hev.keep hT
      · subst h1; exact (hev.keep hT).trans (.setStatus _ _ _ _ hT)

theorem Keep.enterEntry (e : Eng) (x : TaskEntry) (xs : List TaskEntry) (rest : List Frame) (hT : T e.cur) :
    Keep T e (e.enterEntry env x xs rest) := by
  unfold Eng.enterEntry
  split
  · exact .ctl rfl rfl (Or.inr hT)
  · rename_i I hI
    have hm : Keep T e (e.modI e.cur (fun _ => (I.enterTask x.task).1)) :=
      .modI _ _ _ (Or.inl hT) fun J hJ => by rw [hI] at hJ; cases hJ; exact (Calm.enterTask _ _).host
    dsimp only
    split
    · exact hm.trans (.ctl rfl rfl (Or.inr hT))
    · split
      · exact (hm.trans (.schedule _ _ _ hT)).trans (.ctl rfl rfl (Or.inr hT))
      · exact hm.trans (.ctl rfl rfl (Or.inr hT))
    · exact hm.trans (.taskSkipped _ _ _ _ hT hT)

theorem Keep.inner {e : Eng} (h : e.stack ≠ []) (hT : T e.cur) : Keep T e (e.step env) := by
  unfold Eng.step
  split
  · rename_i hs; exact absurd hs h
  · exact .ctl rfl rfl (Or.inr hT)
  · exact .enterEntry _ _ _ _ hT
  · exact (Keep.modI _ _ _ (Or.inl hT) fun I _ => (Calm.release I _).host).trans (.ctl rfl rfl (Or.inr hT))

theorem countP_eraseIdx {α : Type} {l : List α} {n : Nat} {a : α} {p : α → Bool} (h : l[n]? = some a) (hp : p a = false) :
    (l.eraseIdx n).countP p = l.countP p := by
  induction l generalizing n with
  | nil => simp at h
  | cons x xs ih =>
    cases n with
    | zero =>
      rw [List.getElem?_cons_zero, Option.some.injEq] at h
      subst h
      rw [List.eraseIdx_cons_zero, List.countP_cons_of_neg (by simp [hp])]
    | succ n =>
      rw [List.getElem?_cons_succ] at h
      rw [List.eraseIdx_cons_succ, List.countP_cons, List.countP_cons, ih h]

/-- A step of a member of the set. -/
theorem Keep.step {e : Eng} (hl : 0 < e.insts.length) (hq : ∀ w ∈ e.queue, T w.inst) (hc : e.stack = [] ∨ T e.cur) : Keep T e (e.step env) := by
  cases h : Spec.next env e with
  | some w =>
    have hw := List.mem_of_getElem? (next_some h).2.2
    rw [step_next h]
    have h1 : Keep T e (afterPop env e w) := by
      intro hcl
      refine ⟨hcl, fun v hv => Or.inl (List.mem_of_mem_eraseIdx hv), Or.inl ⟨rfl, rfl⟩, fun j J hJ => ⟨J, hJ, rfl⟩, fun _ _ _ => rfl, fun p hp => ?_⟩
      exact countP_eraseIdx (next_some h).2.2 (hp w (hq w hw))
    exact h1.trans (Keep.exec _ _ _ (hq w hw))
  | none =>
    by_cases hst : e.stack = []
    · rw [step_idle hst h hl]; exact .ctl rfl rfl (Or.inl ⟨rfl, rfl⟩)
    · exact .inner hst (hc.resolve_left hst)

end Eng

end Flow
