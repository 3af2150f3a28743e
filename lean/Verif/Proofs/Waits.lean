import Verif.Proofs.Ops

/-
Which task instances wait: a task instance begins to wait only by its own evaluation, and it stops only by its own evaluation
or when it is entered again.
-/

namespace Flow
open Spec

/-- The status of a task instance. -/
def Inst.stOf (I : Inst) (p : Nat) : Option TaskStatus := (I.objs[p]?).map (·.status)

/-- No task instance begins to wait; one that stops is in `W` or was entered; with `b`, those in `W` do not wait. -/
structure Waits (W : Nat → Prop) (b : Bool) (I I' : Inst) : Prop where
  ext : ∃ new, I'.trace = new ++ I.trace ∧ ∀ p, ¬ W p → I.stOf p = some .waiting → I'.stOf p = some .waiting ∨ ∃ t, .taskStatus p t .entered ∈ new
  nonew : ∀ p, I'.stOf p = some .waiting → I.stOf p = some .waiting
  hit : b = true → ∀ p, W p → I'.stOf p ≠ some .waiting

namespace Waits

variable {W : Nat → Prop} {I J K : Inst}

theorem refl (W : Nat → Prop) (I : Inst) : Waits W false I I := ⟨⟨[], rfl, fun _ _ h => Or.inl h⟩, fun _ h => h, nofun⟩

theorem trans {b c : Bool} (h : Waits W b I J) (g : Waits W c J K) : Waits W (b || c) I K := by
  obtain ⟨n1, e1, k1⟩ := h.ext
  obtain ⟨n2, e2, k2⟩ := g.ext
  refine ⟨⟨n2 ++ n1, by rw [e2, e1, List.append_assoc], fun p hp hs => ?_⟩, fun p hp => h.nonew p (g.nonew p hp), fun hb p hp => ?_⟩
  · rcases k1 p hp hs with h1 | ⟨t, ht⟩
    · rcases k2 p hp h1 with h2 | ⟨t, ht⟩
      · exact Or.inl h2
      · exact Or.inr ⟨t, List.mem_append_left _ ht⟩
    · exact Or.inr ⟨t, List.mem_append_right _ ht⟩
  · rcases Bool.or_eq_true _ _ ▸ hb with hb | hb
    · exact fun hc => h.hit hb p hp (g.nonew p hc)
    · exact g.hit hb p hp

theorem quiet (new : List Ev) (ht : J.trace = new ++ I.trace) (h : ∀ p, J.stOf p = I.stOf p) : Waits W false I J :=
  ⟨⟨new, ht, fun p _ hs => Or.inl ((h p).trans hs)⟩, fun p hp => (h p).symm.trans hp, nofun⟩

theorem stOf_setTaskStatus (I : Inst) (o : Nat) (s : TaskStatus) (p : Nat) :
    (I.setTaskStatus o s).stOf p = if o = p then (I.stOf p).map (fun _ => s) else I.stOf p := by
  unfold Inst.setTaskStatus Inst.stOf
  cases ho : I.objs[o]? with
  | none =>
    dsimp only
    split
    · rename_i h; subst h; rw [ho]; rfl
    · rfl
  | some ob =>
    dsimp only
    rw [List.getElem?_modify]
    split
    · rename_i h; subst h; simp [ho]
    · cases I.objs[p]? <;> rfl

theorem trace_setTaskStatus (I : Inst) (o : Nat) (s : TaskStatus) : ∃ new, (I.setTaskStatus o s).trace = new ++ I.trace := by
  unfold Inst.setTaskStatus
  split
  · exact ⟨[], rfl⟩
  · exact ⟨[_], rfl⟩

/-- The status of a task instance that is in `W` or does not wait is set. -/
theorem setTaskStatus (I : Inst) {o : Nat} {s : TaskStatus} (hs : s ≠ .waiting) (h : W o ∨ I.stOf o ≠ some .waiting) :
    Waits W false I (I.setTaskStatus o s) := by
  obtain ⟨new, hn⟩ := trace_setTaskStatus I o s
  refine ⟨⟨new, hn, fun p hp hw => Or.inl ?_⟩, fun p hp => ?_, nofun⟩
  · rw [stOf_setTaskStatus]
    split
    · rename_i hop; subst hop
      rcases h with h | h
      · exact absurd h hp
      · exact absurd hw h
    · exact hw
  · rw [stOf_setTaskStatus] at hp
    split at hp
    · cases hx : I.stOf p with
      | none => rw [hx] at hp; cases hp
      | some x => rw [hx] at hp; cases hp; exact absurd rfl hs
    · exact hp

theorem setTaskStatus_hit (I : Inst) {o : Nat} {s : TaskStatus} (hs : s ≠ .waiting) (hW : ∀ p, W p ↔ p = o) :
    Waits W true I (I.setTaskStatus o s) := by
  refine ⟨(setTaskStatus I hs (Or.inl ((hW o).2 rfl))).ext, (setTaskStatus (W := W) I hs (Or.inl ((hW o).2 rfl))).nonew, fun _ p hp => ?_⟩
  cases (hW p).1 hp
  rw [stOf_setTaskStatus, if_pos rfl]
  cases I.stOf o with
  | none => nofun
  | some x => intro hc; cases hc; exact hs rfl

theorem findOrCreateTask (I : Inst) (t : TaskRef) : Waits W false I (I.findOrCreateTask t).1 := by
  unfold Inst.findOrCreateTask
  split
  · exact refl W I
  · refine ⟨⟨[.taskAdded I.objs.length t.id], rfl, fun p _ hs => Or.inl ?_⟩, fun p hp => ?_, nofun⟩
    · unfold Inst.stOf at hs ⊢
      cases hp : I.objs[p]? with
      | none => rw [hp] at hs; cases hs
      | some ob =>
        have hlt := (List.getElem?_eq_some_iff.1 hp).1
        show ((I.objs ++ _)[p]?).map _ = _
        rw [List.getElem?_append_left hlt]; exact hs
    · unfold Inst.stOf at hp ⊢
      have hp' : ((I.objs ++ [({ task := t } : Obj)])[p]?).map (·.status) = some .waiting := hp
      by_cases hlt : p < I.objs.length
      · rw [List.getElem?_append_left hlt] at hp'; exact hp'
      · rw [List.getElem?_append_right (by omega)] at hp'
        cases hq : p - I.objs.length with
        | zero => rw [hq] at hp'; cases hp'
        | succ n => rw [hq] at hp'; cases hp'

theorem findLink (I : Inst) (l : LinkId) : Waits W false I (I.findLink l) := by
  unfold Inst.findLink
  split
  · exact refl W I
  · exact quiet [.linkAdded l] rfl (fun _ => rfl)

theorem findLinks (I : Inst) (ls : List LinkDef) : Waits W false I (I.findLinks ls) := by
  unfold Inst.findLinks
  induction ls generalizing I with
  | nil => exact refl W I
  | cons l ls ih => exact (findLink I l.id).trans (ih _)

theorem applyRows (I : Inst) (rows : List (LinkDef × LinkStatus × Nat)) : Waits W false I (I.applyRows rows) := by
  unfold Inst.applyRows
  induction rows generalizing I with
  | nil => exact refl W I
  | cons r rs ih => exact (quiet (J := I.setLink r.1.id r.2.1) [.linkStatus r.1.id r.2.1] rfl (fun _ => rfl)).trans (ih _)

theorem stOf_findLinks (I : Inst) (ls : List LinkDef) (p : Nat) : (I.findLinks ls).stOf p = I.stOf p := by
  unfold Inst.findLinks
  induction ls generalizing I with
  | nil => rfl
  | cons l ls ih =>
    refine (ih _).trans ?_
    show (I.findLink l.id).stOf p = _
    unfold Inst.findLink
    split <;> rfl

theorem entered (I : Inst) {o : Nat} {ob : Obj} (ho : I.objs[o]? = some ob) : Waits W false I (I.setTaskStatus o .entered) := by
  have ht : (I.setTaskStatus o .entered).trace = [.taskStatus o ob.task .entered] ++ I.trace := by
    unfold Inst.setTaskStatus; rw [ho]; rfl
  refine ⟨⟨_, ht, fun p _ hw => ?_⟩, fun p hp => ?_, nofun⟩
  · by_cases hop : o = p
    · subst hop; exact Or.inr ⟨_, List.mem_singleton.2 rfl⟩
    · left; rw [stOf_setTaskStatus, if_neg hop]; exact hw
  · rw [stOf_setTaskStatus] at hp
    split at hp
    · cases hx : I.stOf p with
      | none => rw [hx] at hp; cases hp
      | some x => rw [hx] at hp; cases hp
    · exact hp

theorem not_waiting (I : Inst) (o : Nat) {s : TaskStatus} (hs : s ≠ .waiting) : (I.setTaskStatus o s).stOf o ≠ some .waiting := by
  rw [stOf_setTaskStatus, if_pos rfl]
  cases I.stOf o with
  | none => nofun
  | some x => intro hc; cases hc; exact hs rfl

theorem enterTask (I : Inst) (t : TaskRef) :
    Waits W false I (I.enterTask t).1 ∧ ((I.enterTask t).2.2 = .skip → (I.enterTask t).1.stOf (I.enterTask t).2.1 ≠ some .waiting) := by
  unfold Inst.enterTask
  dsimp only
  split
  · exact ⟨findOrCreateTask I t, nofun⟩
  · rename_i ob ho
    have h := ((findOrCreateTask (W := W) I t).trans (entered _ ho)).trans (findLinks _ ((I.findOrCreateTask t).1.defn.fromLinks ob.task))
    have hn : (((I.findOrCreateTask t).1.setTaskStatus (I.findOrCreateTask t).2 .entered).findLinks ((I.findOrCreateTask t).1.defn.fromLinks ob.task)).stOf
        (I.findOrCreateTask t).2 ≠ some .waiting := by
      rw [stOf_findLinks]; exact not_waiting _ _ (nomatch ·)
    split
    · exact ⟨h, nofun⟩
    · exact ⟨h.trans (setTaskStatus _ (nomatch ·) (Or.inr hn)), nofun⟩
    · exact ⟨h.trans (setTaskStatus _ (nomatch ·) (Or.inr hn)), fun _ => not_waiting _ _ (nomatch ·)⟩

theorem release (I : Inst) (t : TaskRef) : Waits W false I (I.release t) := by
  unfold Inst.release
  have h0 : Waits W false I { I with tasks := I.tasks.del t.id, trace := .taskRemoved t.id :: I.trace } :=
    quiet [.taskRemoved t.id] rfl (fun _ => rfl)
  generalize ({ I with tasks := I.tasks.del t.id, trace := .taskRemoved t.id :: I.trace } : Inst) = J at h0
  generalize I.defn.fromLinks t = ls
  induction ls generalizing J with
  | nil => exact h0
  | cons l ls ih => exact ih _ (h0.trans (quiet [.linkRemoved l.id] rfl (fun _ => rfl)))

theorem skipTask (I : Inst) {o : Nat} (t : TaskRef) (h : I.stOf o ≠ some .waiting) : Waits W false I (I.skipTask o t).1 :=
  ((findLinks I (I.defn.toLinks t)).trans (setTaskStatus (s := .skipped) _ (nomatch ·) (Or.inr (by rw [stOf_findLinks]; exact h)))).trans (applyRows _ _)

theorem doneTask (prio : Bool) (ev : LinkDef → ExprOut) (I : Inst) {o : Nat} (t : TaskRef) (hW : ∀ p, W p ↔ p = o) :
    Waits W true I (I.doneTask prio ev o t).1 := by
  unfold Inst.doneTask
  dsimp only
  split <;> exact ((findLinks I (I.defn.toLinks t)).trans (setTaskStatus_hit (s := .done) _ (nomatch ·) hW)).trans (applyRows _ _)

theorem errorTask (I : Inst) {o : Nat} (t : TaskRef) (hW : ∀ p, W p ↔ p = o) : Waits W true I (I.errorTask o t).1 := by
  unfold Inst.errorTask
  dsimp only
  split
  · exact (setTaskStatus_hit (s := .failed) I (nomatch ·) hW).trans (findLinks _ _)
  · exact ((setTaskStatus_hit (s := .failed) I (nomatch ·) hW).trans (findLinks _ _)).trans (applyRows _ _)

theorem modO (I : Inst) (o : Nat) (f : Obj → Obj) (hf : ∀ x, (f x).status = x.status) : Waits W false I (I.modO o f) := by
  refine quiet [] rfl (fun p => ?_)
  unfold Inst.stOf Inst.modO
  dsimp only
  rw [List.getElem?_modify]
  cases I.objs[p]? with
  | none => simp
  | some x =>
    by_cases h : o = p
    · simp [h, hf]
    · simp [h]

end Waits

namespace Eng

variable {env : Env} {i o : Nat}

/-- The executed task instance `o` of instance `i`, seen from instance `j`. -/
def Self (i o j : Nat) : Nat → Prop := fun p => j = i ∧ p = o

/-- `Waits` for all instances; new ones have no waiting tasks. -/
structure WaitsE (i o : Nat) (b : Bool) (e e' : Eng) : Prop where
  insts : ∀ (j : Nat) (I : Inst), e.insts[j]? = some I → ∃ I', e'.insts[j]? = some I' ∧ Waits (Self i o j) (b && decide (j = i)) I I'
  fresh : ∀ (j : Nat) (I' : Inst), e'.insts[j]? = some I' → e.insts[j]? = none → ∀ p, I'.stOf p ≠ some .waiting

namespace WaitsE

variable {e f g : Eng} {b c : Bool}

theorem of_insts (h : f.insts = e.insts) : WaitsE i o false e f :=
  ⟨fun j I hI => ⟨I, by rw [h]; exact hI, .refl _ I⟩, fun j I' h1 h2 => by rw [h, h2] at h1; cases h1⟩

theorem refl (e : Eng) : WaitsE i o false e e := of_insts rfl

theorem trans (h : WaitsE i o b e f) (k : WaitsE i o c f g) : WaitsE i o (b || c) e g := by
  refine ⟨fun j I hI => ?_, fun j I' h1 h2 p => ?_⟩
  · obtain ⟨J, hJ, w1⟩ := h.insts j I hI
    obtain ⟨K, hK, w2⟩ := k.insts j J hJ
    refine ⟨K, hK, ?_⟩
    have := w1.trans w2
    rwa [← Bool.and_or_distrib_right] at this
  · cases hf : f.insts[j]? with
    | none => exact k.fresh j I' h1 hf p
    | some J =>
      obtain ⟨K, hK, w⟩ := k.insts j J hf
      rw [h1] at hK; cases hK
      exact fun hp => h.fresh j J hf h2 p (w.nonew p hp)

theorem weaken (h : WaitsE i o b e f) : WaitsE i o false e f :=
  ⟨fun j I hI => by
    obtain ⟨J, hJ, w⟩ := h.insts j I hI
    exact ⟨J, hJ, w.ext, w.nonew, nofun⟩, h.fresh⟩

theorem modI_any (e : Eng) (k : Nat) (F : Inst → Inst) (h : ∀ I, e.insts[k]? = some I → Waits (Self i o k) false I (F I)) :
    WaitsE i o false e (e.modI k F) := by
  refine ⟨fun j I hI => ?_, fun j I' h1 h2 => ?_⟩
  · rw [modI_getElem?, hI]
    split
    · rename_i hk; subst hk; exact ⟨F I, rfl, h I hI⟩
    · exact ⟨I, rfl, .refl _ I⟩
  · rw [modI_getElem?, h2] at h1
    split at h1 <;> cases h1

theorem modI_hit (e : Eng) (F : Inst → Inst) (h : ∀ I, e.insts[i]? = some I → Waits (Self i o i) true I (F I)) :
    WaitsE i o true e (e.modI i F) := by
  refine ⟨fun j I hI => ?_, fun j I' h1 h2 => ?_⟩
  · rw [modI_getElem?, hI]
    split
    · rename_i hk; subst hk; exact ⟨F I, rfl, by simpa using h I hI⟩
    · rename_i hk
      have hk' : ¬ j = i := fun hx => hk hx.symm
      exact ⟨I, rfl, by simpa [hk'] using Waits.refl _ I⟩
  · rw [modI_getElem?, h2] at h1
    split at h1 <;> cases h1

theorem quietI (e : Eng) (k : Nat) (F : Inst → Inst) (h : ∀ I, ∃ new, (F I).trace = new ++ I.trace ∧ (F I).objs = I.objs) :
    WaitsE i o false e (e.modI k F) :=
  modI_any e k F (fun I _ => by
    obtain ⟨new, h1, h2⟩ := h I
    exact .quiet new h1 (fun p => by unfold Inst.stOf; rw [h2]))

theorem flowStatus (e : Eng) (k : Nat) (s : FlowStatus) : WaitsE i o false e (e.modI k (fun J => J.setFlowStatus s)) :=
  quietI e k _ (fun _ => ⟨[.flowStatus s], rfl, rfl⟩)

theorem appendErrorData (e : Eng) (k : Nat) (t : TaskId) (err : Err) : WaitsE i o false e (e.appendErrorData k t err) :=
  quietI e k _ (fun _ => ⟨[], rfl, rfl⟩)

theorem modO (e : Eng) (k p : Nat) (F : Obj → Obj) (hF : ∀ x, (F x).status = x.status) : WaitsE i o false e (e.modI k (fun H => H.modO p F)) :=
  modI_any e k _ (fun H _ => .modO H p F hF)

theorem complete (e : Eng) (k : Nat) : WaitsE i o false e (e.complete k) := by
  have h1 : WaitsE i o false e (e.modI k (fun J => J.setFlowStatus .completed)) := flowStatus e k _
  unfold Eng.complete
  split
  · exact refl e
  · dsimp only
    split
    · exact h1
    · split
      · exact h1.trans (of_insts rfl)
      · rename_i I _ _ _ hi ho _
        exact (h1.trans (modO _ hi ho (fun x => { x with outputs := I.returnData, returnError := none }) (fun _ => rfl))).trans (of_insts rfl)

theorem failHost (e : Eng) (k : Nat) (err : Err) : WaitsE i o false e (e.failHost k err) := by
  unfold Eng.failHost
  split
  · exact refl e
  · split
    · exact refl e
    · rename_i hi ho _
      exact (modO _ hi ho (fun x => { x with returnError := some err }) (fun _ => rfl)).trans (of_insts rfl)

theorem globalError (e : Eng) (k : Nat) (err : Err) : WaitsE i o false e (e.globalError k err) := by
  unfold Eng.globalError
  split
  · exact refl e
  · split
    · exact flowStatus e k _
    · have h1 : WaitsE i o false e (e.modI k (fun J => { J with handling := true })) := quietI e k _ (fun _ => ⟨[], rfl, rfl⟩)
      dsimp only
      split
      · exact ((h1.trans (quietI _ 0 (fun J => J.clearTasks) (fun _ => ⟨[.cleared], rfl, rfl⟩))).trans
          (quietI _ k (fun J => { J with trace := .ehStart :: J.trace }) (fun _ => ⟨[.ehStart], rfl, rfl⟩))).trans (of_insts rfl)
      · have h2 := h1.trans (flowStatus _ k .failed)
        split
        · exact h2.trans (quietI _ 0 (fun J => { J with returnError := some err }) (fun _ => ⟨[], rfl, rfl⟩))
        · exact h2.trans (failHost _ k err)

theorem self_iff : ∀ p, Self i o i p ↔ p = o := fun _ => ⟨fun h => h.2, fun h => ⟨rfl, h⟩⟩

/-- In the engine the executed task instance exists. -/
theorem taskError (e : Eng) (t : TaskRef) (err : Err) {I : Inst} (hI : e.insts[i]? = some I) : WaitsE i o true e (e.taskError i o t err) := by
  unfold Eng.taskError
  rw [hI]
  dsimp only
  have hw := Waits.errorTask (W := Self i o i) I t self_iff
  split
  · rename_i I1 es h1
    rw [h1] at hw
    refine WaitsE.trans (b := true) (c := false) (modI_hit e _ (fun J hJ => ?_)) (of_insts rfl)
    rw [hI] at hJ; cases hJ
    exact hw.trans (.quiet (J := I1.setValue ("_E." ++ t.id) (errorObj t.id err)) [] rfl (fun _ => rfl))
  · rename_i I1 h1
    rw [h1] at hw
    have h2 : WaitsE i o true e (e.modI i (fun _ => I1)) := modI_hit e _ (fun J hJ => by rw [hI] at hJ; cases hJ; exact hw)
    split
    · split
      · exact (h2.trans (flowStatus _ i .failed)).trans (appendErrorData _ _ _ _)
      · exact (h2.trans (flowStatus _ i .failed)).trans (failHost _ _ _)
    · exact (h2.trans (appendErrorData _ _ _ _)).trans (globalError _ _ _)

theorem finishTask (e : Eng) (k : Nat) (t : TaskRef) (n : Bool) (es : List TaskEntry) (rest : List Frame) :
    WaitsE i o false e (e.finishTask k t n es rest) := by
  unfold Eng.finishTask
  split
  · exact refl e
  · split
    · exact (complete e k).trans (of_insts rfl)
    · exact of_insts rfl

theorem taskDone (e : Eng) (t : TaskRef) {I : Inst} (hI : e.insts[i]? = some I) : WaitsE i o true e (e.taskDone env i o t) := by
  unfold Eng.taskDone
  rw [hI]
  dsimp only
  have hw := Waits.doneTask (W := Self i o i) env.prio (env.link e i) I t self_iff
  split
  · rename_i I1 m h1
    rw [h1] at hw
    exact ((modI_hit e (fun _ => I1) (fun J hJ => by rw [hI] at hJ; cases hJ; exact hw)).trans (appendErrorData _ _ _ _)).trans (globalError _ _ _)
  · rename_i I1 es h1
    rw [h1] at hw
    exact (modI_hit e (fun _ => I1) (fun J hJ => by rw [hI] at hJ; cases hJ; exact hw)).trans (finishTask _ _ _ _ _ _)

theorem taskSkipped (e : Eng) (k p : Nat) (rest : List Frame) (h : ∀ I, e.insts[k]? = some I → I.stOf p ≠ some .waiting) :
    WaitsE i o false e (e.taskSkipped k p rest) := by
  unfold Eng.taskSkipped
  split
  · exact refl e
  · rename_i I hI
    split
    · exact of_insts rfl
    · refine (modI_any e k _ (fun J hJ => ?_)).trans (finishTask _ _ _ _ _ _)
      rw [hI] at hJ; cases hJ
      exact .skipTask _ _ (h I hI)

theorem enterEntry (e : Eng) (x : TaskEntry) (xs : List TaskEntry) (rest : List Frame) : WaitsE i o false e (e.enterEntry env x xs rest) := by
  unfold Eng.enterEntry
  split
  · exact of_insts rfl
  · rename_i I hI
    have hm : WaitsE i o false e (e.modI e.cur (fun _ => (I.enterTask x.task).1)) :=
      modI_any e _ _ (fun J hJ => by rw [hI] at hJ; cases hJ; exact (Waits.enterTask I x.task).1)
    dsimp only
    split
    · exact hm.trans (of_insts rfl)
    · split
      · exact hm.trans (of_insts rfl)
      · exact hm.trans (of_insts rfl)
    · rename_i hk
      refine hm.trans (taskSkipped _ _ _ _ (fun J hJ => ?_))
      rw [modI_self hI] at hJ; cases hJ
      exact (Waits.enterTask (W := Self i o e.cur) I x.task).2 hk

theorem enterStart (k : Nat) (es : List TaskEntry) (e : Eng) : WaitsE i o false e (enterStart env e k es) := by
  induction es generalizing e with
  | nil => exact refl e
  | cons x xs ih =>
    simp only [Eng.enterStart]
    split
    · exact refl e
    · rename_i I hI
      have hm : WaitsE i o false e (e.modI k (fun _ => (I.enterTask x.task).1)) :=
        modI_any e _ _ (fun J hJ => by rw [hI] at hJ; cases hJ; exact (Waits.enterTask I x.task).1)
      split
      · split
        · exact (hm.trans (of_insts (f := schedule (e.modI k (fun _ => (I.enterTask x.task).1)) k (I.enterTask x.task).2.1) rfl)).trans (ih _)
        · exact hm
      · exact hm.trans (ih _)

theorem startInstance (e : Eng) (k : Nat) (ins : AMap String Val) : WaitsE i o false e (startInstance env e k ins) := by
  unfold Eng.startInstance
  split
  · exact refl e
  · rename_i I hI
    refine (modI_any e k _ (fun J hJ => ?_)).trans (enterStart k _ _)
    rw [hI] at hJ; cases hJ
    exact .quiet [.flowStatus .active] rfl (fun _ => rfl)

theorem newEmbedded (e : Eng) (uri : String) (d : Def) : WaitsE i o false e (e.newEmbedded i o uri d) := by
  refine ⟨fun j I hI => ⟨I, ?_, .refl _ I⟩, fun j I' h1 h2 p => ?_⟩
  · rw [newEmbedded_getElem? _ _ _ _ _ (List.getElem?_eq_some_iff.1 hI).1]; exact hI
  · have hlen := List.getElem?_eq_none_iff.1 h2
    unfold Eng.newEmbedded at h1
    dsimp only at h1
    rw [List.getElem?_append_right hlen] at h1
    cases hq : j - e.insts.length with
    | zero => rw [hq] at h1; cases h1; nofun
    | succ n => rw [hq] at h1; cases h1

theorem evals {s : Option String} (h : Evals env i o s e f) : WaitsE i o false e f := by
  induction h with
  | refl e => exact refl e
  | inst e F hF =>
    refine modI_any e i F (fun I hI => ?_)
    have hs := hF I hI
    obtain ⟨new, h1, _⟩ := hs.trace
    refine .quiet new h1 (fun p => ?_)
    have := hs.core p
    unfold Inst.stOf
    cases h2 : (F I).objs[p]? <;> cases h3 : I.objs[p]? <;> rw [h2, h3] at this <;> simp at this ⊢
    exact this.2
  | reply e r => exact of_insts rfl
  | sub e uri d inputs _ _ _ => exact (newEmbedded e uri d).trans (startInstance _ _ _)
  | trans _ _ h1 h2 => exact h1.trans h2

theorem inner {e : Eng} (h : e.stack ≠ []) : WaitsE i o false e (e.step env) := by
  unfold Eng.step
  split
  · rename_i hs; exact absurd hs h
  · exact of_insts rfl
  · exact enterEntry _ _ _ _
  · exact (modI_any e _ _ (fun I _ => .release I _)).trans (of_insts rfl)

/-- After the evaluation. -/
theorem handleResult (e : Eng) (t : TaskRef) (name : String) (r : EvalOut) {I : Inst} (hI : e.insts[i]? = some I) (hr : r ≠ .res .wait) :
    ∃ b, WaitsE i o b e (e.handleResult env i o t name r) ∧ ((∃ err, r = .err err) ∨ r = .res .done → b = true) := by
  unfold Eng.handleResult
  cases r with
  | err err => exact ⟨true, taskError e t err hI, fun _ => rfl⟩
  | res r =>
    cases r with
    | done => exact ⟨true, taskDone e t hI, fun _ => rfl⟩
    | skip => exact ⟨true, taskDone e t hI, fun _ => rfl⟩
    | wait => exact absurd rfl hr
    | fail =>
      exact ⟨false, modI_any e i _ (fun J _ => .setTaskStatus J (nomatch ·) (Or.inl ⟨rfl, rfl⟩)), by rintro (⟨_, h⟩ | h) <;> cases h⟩
    | again => exact ⟨false, of_insts rfl, by rintro (⟨_, h⟩ | h) <;> cases h⟩
  | panic m =>
    refine ⟨false, ?_, by rintro (⟨_, h⟩ | h) <;> cases h⟩
    dsimp only
    split
    · exact refl e
    · split
      · exact refl e
      · exact (appendErrorData e _ _ _).trans (globalError _ _ _)

end WaitsE

end Eng

end Flow
