import Verif.Proofs.Loops
import Verif.Spec.Mock
import Verif.Spec.Data

/-
Lemmas for C41 and C61: the activity of a task that an interceptor blocks, or whose inputs are never acceptable, is never
called.
-/

namespace Flow
open Spec

/-- No call of the activity of task `t` by task object `o` was added. -/
structure Uncalled (o : Nat) (t : TaskRef) (I I' : Inst) : Prop where
  calls : I'.trace.count (.evalAct o t) = I.trace.count (.evalAct o t)
  defn : I'.defn = I.defn
  task : (I'.objs[o]?).map (·.task) = (I.objs[o]?).map (·.task)

theorem Uncalled.refl (o : Nat) (t : TaskRef) (I : Inst) : Uncalled o t I I := ⟨rfl, rfl, rfl⟩

theorem Uncalled.trans {o : Nat} {t : TaskRef} {I J K : Inst} (h : Uncalled o t I J) (g : Uncalled o t J K) : Uncalled o t I K :=
  ⟨g.calls.trans h.calls, g.defn.trans h.defn, g.task.trans h.task⟩

namespace Eng

variable {env : Env} {i o : Nat} {t : TaskRef}

/-- The same for instance `i` of a state. -/
def UncalledE (i o : Nat) (t : TaskRef) (e e' : Eng) : Prop :=
  ∀ I, e.insts[i]? = some I → ∃ I', e'.insts[i]? = some I' ∧ Uncalled o t I I'

theorem UncalledE.refl (e : Eng) : UncalledE i o t e e := fun I hI => ⟨I, hI, .refl o t I⟩

theorem UncalledE.trans {e f g : Eng} (h : UncalledE i o t e f) (h' : UncalledE i o t f g) : UncalledE i o t e g := by
  intro I hI
  obtain ⟨J, hJ, h1⟩ := h I hI
  obtain ⟨K, hK, h2⟩ := h' J hJ
  exact ⟨K, hK, h1.trans h2⟩

theorem LocalE.uncalled {k : Bool} {e e' : Eng} (h : LocalE k i o e e') : UncalledE i o t e e' := by
  intro I hI
  obtain ⟨I', hI', h1⟩ := h.inst hI
  refine ⟨I', hI', by rw [h1.trace], h1.defn, ?_⟩
  have h2 := congrArg (Option.map (fun x => x.1)) (h1.core o)
  simp only [Option.map_map] at h2
  exact h2

theorem UncalledE.setStatus (e : Eng) (s : TaskStatus) : UncalledE i o t e (e.setStatus i o s) := by
  intro I hI
  refine ⟨_, modI_self hI _, ?_⟩
  have h := Calm.keepObj (Calm.setTaskStatus I o s) o
  refine ⟨h.calls t, h.defn, ?_⟩
  unfold Inst.setTaskStatus
  cases ho : I.objs[o]? with
  | none => simp [ho]
  | some ob => simp [ho]

/-- The activity is not to be called: the task is blocked or its inputs are never acceptable. -/
def Stopped (env : Env) (i o : Nat) (flow : String) (t : TaskId) : Prop := Blocked env flow t ∨ RejectsInput env i o

/-- The task object does not stand for task `t`, or the activity of `t` is not to be called. -/
def Held (env : Env) (i o : Nat) (t : TaskRef) (e : Eng) : Prop :=
  ∃ I : Inst, e.insts[i]? = some I ∧ ∀ ob : Obj, I.objs[o]? = some ob → ob.task ≠ t ∨ Stopped env i o I.defn.name t.id

theorem Held.keep {e e' : Eng} (h : Held env i o t e) (hu : UncalledE i o t e e') : Held env i o t e' := by
  obtain ⟨I, hI, h⟩ := h
  obtain ⟨I', hI', h1⟩ := hu I hI
  refine ⟨I', hI', fun ob' hob' => ?_⟩
  have h2 := h1.task
  rw [hob'] at h2
  cases hob : I.objs[o]? with
  | none => rw [hob] at h2; cases h2
  | some ob =>
    rw [hob] at h2
    have h3 : ob'.task = ob.task := by simpa using h2
    rw [h3, h1.defn]
    exact h ob hob

theorem callActivity_uncalled {e : Eng} {ob : Obj} (td : TaskDef) (hne : ob.task ≠ t) :
    UncalledE i o t e (e.callActivity env i o ob td).1 := by
  intro I hI
  obtain ⟨I', h1, h2, h3, h4⟩ := callActivity_calls (env := env) (o := o) (ob := ob) td hI
  refine ⟨I', h1, ?_, h3, ?_⟩
  · rw [h2, List.count_cons_of_ne]
    intro h
    simp only [Ev.evalAct.injEq] at h
    exact hne h.2
  · have h5 := congrArg (Option.map (fun x => x.1)) (h4 o)
    simp only [Option.map_map] at h5
    exact h5

theorem evalWith_uncalled {p : Eng × Bool} {ob : Obj} (td : TaskDef)
    (h : ob.task ≠ t ∨ p.2 = false ∨ mocked env p.1 i ob = true ∨ ∀ e, ∃ err, env.inSchema e i o = some err) :
    UncalledE i o t p.1 (evalWith env p i o ob td).1 := by
  unfold Eng.evalWith
  split
  · exact (LocalE.afterDone (k := true) ..).uncalled
  · rename_i hp
    split
    · exact .refl _
    · rename_i hns
      split
      · exact (LocalE.afterDone (k := true) ..).uncalled
      · rename_i hm
        have hne : ob.task ≠ t := by
          rcases h with h | h | h
          · exact h
          · exact absurd h hp
          · rcases h with h | h
            · exact absurd h hm
            · obtain ⟨err, he⟩ := h p.1
              rw [hns] at he; cases he
        have hc := callActivity_uncalled (env := env) (i := i) (o := o) (e := p.1) td hne
        split
        · rename_i e3 err pq heq
          rw [heq] at hc
          split
          · exact hc
          · exact hc.trans (LocalE.evalErrorData (k := true) ..).uncalled
        · rename_i e3 pq heq
          rw [heq] at hc
          exact hc.trans (LocalE.afterDone (k := true) ..).uncalled
        · rename_i e3 pq heq
          rw [heq] at hc
          exact hc

theorem evalOnce_uncalled {e : Eng} (h : Held env i o t e) : UncalledE i o t e (e.evalOnce env i o).1 := by
  unfold Eng.evalOnce
  obtain ⟨I, hI, h⟩ := h
  split
  · exact .refl _
  · rename_i ob ho
    split
    · exact .refl _
    · rename_i td htd
      have hmap := LocalE.applyInputMapper (env := env) (k := true) (i := i) (o := o) e td.name
      split
      · rename_i e1 err heq
        rw [heq] at hmap
        exact hmap.uncalled
      · rename_i e1 heq
        rw [heq] at hmap
        have hin := LocalE.inputInterceptor (env := env) (k := true) (i := i) (o := o) e1 ob
        refine hmap.uncalled.trans (hin.uncalled.trans (evalWith_uncalled td ?_))
        have hob : I.objs[o]? = some ob := by rw [← obj?_eq hI]; exact ho
        rcases h ob hob with hne | hb
        · exact Or.inl hne
        · by_cases ht : ob.task = t
          · refine Or.inr ?_
            rcases hb with (⟨c, hc, hs⟩ | ⟨c, hc, hs⟩) | (hrm | hrs)
            · left
              unfold Eng.inputInterceptor icpIn
              rw [ht, hc]
              simp [hs]
            · right; left
              obtain ⟨J, hJ, h1⟩ := (hmap.trans hin).inst hI
              unfold mocked icpOut
              rw [hJ]
              dsimp only
              rw [h1.defn, ht, hc]
              exact hs
            · exfalso
              obtain ⟨m, hm⟩ := hrm e
              unfold Eng.applyInputMapper at heq
              rw [hm] at heq
              cases heq
            · exact Or.inr (Or.inr hrs)
          · exact Or.inl ht

theorem retryFrom_uncalled (n : Nat) {e : Eng} (h : Held env i o t e) : UncalledE i o t e (retryFrom env n e i o).1 := by
  induction n generalizing e with
  | zero =>
    have h0 : UncalledE i o t e (e.setRetry i o 0) := (LocalE.setRetry e 0).uncalled
    exact h0.trans (evalOnce_uncalled (h.keep h0))
  | succ n ih =>
    have h0 : UncalledE i o t e (e.setRetry i o (n + 1)) := (LocalE.setRetry e _).uncalled
    have h1 := h0.trans (evalOnce_uncalled (h.keep h0))
    unfold Eng.retryFrom
    split
    · rename_i e1 err heq
      rw [heq] at h1
      split
      · exact h1.trans (ih (h.keep h1))
      · exact h1
    · exact h1

theorem getRetry_uncalled (e : Eng) : UncalledE i o t e (e.getRetry env i o).1 := (LocalE.getRetry e).uncalled

theorem evalActivity_uncalled {e : Eng} (h : Held env i o t e) : UncalledE i o t e (e.evalActivity env i o).1 := by
  have h1 := evalOnce_uncalled h
  unfold Eng.evalActivity
  split
  · rename_i e1 d heq
    rw [heq] at h1; exact h1
  · rename_i e1 err heq
    rw [heq] at h1
    have h2 := getRetry_uncalled (env := env) (i := i) (o := o) (t := t) e1
    split
    · split
      · rename_i e2 rerr heq2
        rw [heq2] at h2
        exact h1.trans h2
      · rename_i e2 c heq2
        rw [heq2] at h2
        split
        · exact (h1.trans h2).trans (retryFrom_uncalled _ (h.keep (h1.trans h2)))
        · exact h1.trans h2
    · exact h1

theorem postOnce_uncalled (e : Eng) : UncalledE i o t e (e.postOnce env i o).1 := by
  intro I hI
  obtain ⟨I1, h1, h2, h3, h4⟩ := postOnce_inst (env := env) (o := o) hI
  refine ⟨I1, h1, h2 t, h3, ?_⟩
  have h5 := congrArg (Option.map (fun x => x.1)) (h4 o)
  simp only [Option.map_map] at h5
  exact h5

theorem dwCheck_uncalled (e : Eng) (td : TaskDef) : UncalledE i o t e (e.dwCheck env i o td).1 := (LocalE.dwUpdate e).uncalled

theorem evalKind_uncalled {e : Eng} (h : Held env i o t e) (td : TaskDef) : UncalledE i o t e (e.evalKind env i o td).1 := by
  unfold Eng.evalKind
  split
  · have h1 := evalActivity_uncalled h
    unfold Eng.evalBasic
    split <;> (rename_i heq; rw [heq] at h1; exact h1)
  · unfold Eng.evalIter
    split
    · exact .refl _
    · exact .refl _
    · rename_i it _
      have hm : ∀ f : Obj → Obj, (∀ x, (f x).task = x.task ∧ (f x).status = x.status ∧ (f x).returnError = x.returnError) →
          UncalledE i o t e (e.modI i (fun I => I.modO o f)) := fun f hf =>
        (LocalE.mk' (k := false) e _ (fun I => .modO f hf (fun h => nomatch h))).uncalled
      dsimp only
      split
      · exact hm _ (fun _ => ⟨rfl, rfl, rfl⟩)
      · split
        · exact .refl _
        · rename_i v _
          have h0 := hm (fun x => { x with iter := some it.next.1, iteration := some (it.next.1.key, v, it.next.1.current) })
            (fun _ => ⟨rfl, rfl, rfl⟩)
          have h1 := h0.trans (evalActivity_uncalled (h.keep h0))
          split
          · rename_i heq; rw [heq] at h1; exact h1.trans (.setStatus _ _)
          · rename_i heq; rw [heq] at h1; exact h1.trans (.setStatus _ _)
          · rename_i heq; rw [heq] at h1; exact h1
  · have h0 : UncalledE i o t e (e.dwInit i o) := (LocalE.dwInit e).uncalled
    have h1 := h0.trans (evalActivity_uncalled (h.keep h0))
    unfold Eng.evalDoWhile
    split
    · rename_i heq; rw [heq] at h1; exact h1.trans (.setStatus _ _)
    · rename_i heq; rw [heq] at h1; exact h1.trans (.setStatus _ _)
    · rename_i heq; rw [heq] at h1; exact h1.trans (dwCheck_uncalled _ _)

theorem postKind_uncalled {e : Eng} (h : Held env i o t e) (td : TaskDef) : UncalledE i o t e (e.postKind env i o td).1 := by
  have hp := postOnce_uncalled (env := env) (i := i) (o := o) (t := t) e
  unfold Eng.postKind
  split
  · unfold Eng.postBasic
    split
    · rename_i heq; rw [heq] at hp; exact hp
    · rename_i e1 err heq
      rw [heq] at hp
      have h2 := getRetry_uncalled (env := env) (i := i) (o := o) (t := t) e1
      split
      · split
        · rename_i heq2; rw [heq2] at h2; exact hp.trans h2
        · rename_i e2 c heq2
          rw [heq2] at h2
          have h3 := hp.trans h2
          split
          · have h4 := h3.trans (retryFrom_uncalled (c.toNat - 1) (h.keep h3))
            split <;> (rename_i heq3; rw [heq3] at h4; exact h4)
          · exact h3
      · exact hp
  · unfold Eng.postIter
    split
    · rename_i heq; rw [heq] at hp; exact hp.trans (.setStatus _ _)
    · rename_i heq
      rw [heq] at hp
      have h1 := hp.trans (UncalledE.setStatus (i := i) (o := o) (t := t) _ .done)
      dsimp only
      split <;> exact h1
  · have h0 : UncalledE i o t e (e.dwInit i o) := (LocalE.dwInit e).uncalled
    have h1 := h0.trans (postOnce_uncalled (env := env) (i := i) (o := o) (t := t) _)
    unfold Eng.postDoWhile
    split
    · rename_i heq; rw [heq] at h1; exact h1.trans (.setStatus _ _)
    · rename_i heq; rw [heq] at h1
      exact (h1.trans (.setStatus _ _)).trans (dwCheck_uncalled _ _)

/-! ### Over a run -/

/-- If the activity is not to be called, it was not called. -/
def NoCall (env : Env) (i o : Nat) (t : TaskRef) (I : Inst) : Prop :=
  Stopped env i o I.defn.name t.id → I.trace.count (.evalAct o t) = 0

theorem NoCall.stable (o : Nat) (t : TaskRef) : StableAt o (NoCall env i o t) := by
  have hk : ∀ {I I' : Inst}, I'.defn = I.defn → I'.trace.count (.evalAct o t) = I.trace.count (.evalAct o t) →
      NoCall env i o t I → NoCall env i o t I' := fun h1 h2 h hb => h2.trans (h (h1 ▸ hb))
  refine ⟨?_, ?_, ?_, ?_, ?_, ?_, ?_⟩
  · intro I I' hc h; exact hk hc.defn ((Calm.keepObj hc o).calls t) h
  · intro p I I' hp hs h; exact hk hs.defn ((SameInst.keepObj hs hp).calls t) h
  · intro I a h; exact hk (I := I) rfl rfl h
  · intro I s h; exact hk (I := I) rfl (by simp [Inst.setFlowStatus]) h
  · intro I h; exact hk (I := I) rfl rfl h
  · intro I h; exact hk (I := I) rfl (by simp) h
  · intro I err h; exact hk (I := I) rfl rfl h

theorem NoCall.init (id uri : String) (d : Def) (ins : AMap String Val) (i o : Nat) (t : TaskRef) :
    ∀ I, (Eng.init env id uri d ins).insts[i]? = some I → NoCall env i o t I :=
  fun I hI _ => (Unstarted.init id uri d ins i o I hI).calls t

theorem NoCall.step {e : Eng} (hr : Reachable env e) (h : ∀ I, e.insts[i]? = some I → NoCall env i o t I) :
    ∀ I, (e.step env).insts[i]? = some I → NoCall env i o t I := by
  have hl := insts_pos hr
  by_cases hev : ∃ t e' r, Evaluates env e i o t e' r
  · obtain ⟨t', e', r, hev⟩ := hev
    obtain ⟨ob, ho⟩ : ∃ ob, e.obj? i o = some ob := by
      have := hev.task
      cases h : e.obj? i o with
      | none => rw [h] at this; cases this
      | some ob => exact ⟨ob, rfl⟩
    obtain ⟨I, hI, hob⟩ := obj?_some ho
    have htd : ∃ td, e.taskDef? i ob.task = some td := by
      obtain ⟨w, _, _, _, h4⟩ := hev.item
      unfold Spec.outcome at h4
      have h5 : (afterPop env e w).obj? i o = some ob := ho
      rw [h5] at h4
      dsimp only at h4
      cases h6 : e.taskDef? i ob.task with
      | some td => exact ⟨td, rfl⟩
      | none =>
        have h7 : (afterPop env e w).taskDef? i ob.task = none := h6
        rw [h7] at h4
        cases h4
    obtain ⟨td, htd⟩ := htd
    obtain ⟨w, _, _, _, h4, h5⟩ := evaluates_eval hev ho htd
    intro J hJ hb
    obtain ⟨I1, hI1, hu⟩ : ∃ I1, e'.insts[i]? = some I1 ∧ (Stopped env i o I.defn.name t.id → Uncalled o t I I1) ∧ I1.defn = I.defn := by
      have hI' : (afterPop env e w).insts[i]? = some I := hI
      by_cases hbI : Stopped env i o I.defn.name t.id
      · have hheld : Held env i o t (afterPop env e w) := ⟨I, hI', fun _ _ => Or.inr hbI⟩
        by_cases hw : ob.status = .waiting
        · obtain ⟨I1, h6, h7⟩ := postKind_uncalled hheld td I hI'
          rw [← h4 hw] at h6
          exact ⟨I1, h6, fun _ => h7, h7.defn⟩
        · obtain ⟨I1, h6, h7⟩ := evalKind_uncalled hheld td I hI'
          rw [← h5 hw] at h6
          exact ⟨I1, h6, fun _ => h7, h7.defn⟩
      · exfalso
        obtain ⟨I2, h6, h7⟩ := (Good.step (env := env) e (engOK_reachable hr)).2 i I hI
        rw [hJ] at h6; cases h6
        rw [h7.defn] at hb
        exact hbI hb
    obtain ⟨I2, hI2, hk⟩ := evaluates_keep hev hI1
    rw [hJ] at hI2; cases hI2
    have hb1 : Stopped env i o I.defn.name t.id := by rw [hk.defn, hu.2] at hb; exact hb
    rw [hk.calls t, (hu.1 hb1).calls]
    exact h I hI hb1
  · obtain ⟨j, q, h1, h2⟩ := step_ops_ne (env := env) (i := i) (o := o) hl (fun t e' r hh => hev ⟨t, e', r, hh⟩)
    exact (NoCall.stable o t).ops (fun d uri k h _ => by simp) h1 h2 h

theorem NoCall.reachable {e : Eng} (hr : Reachable env e) : ∀ I, e.insts[i]? = some I → NoCall env i o t I := by
  obtain ⟨id, uri, d, ins, n, rfl⟩ := hr
  induction n with
  | zero => exact NoCall.init id uri d ins i o t
  | succ n ih =>
    rw [show n + 1 = n + 1 from rfl, Eng.run_add env _ n 1]
    exact NoCall.step ⟨id, uri, d, ins, n, rfl⟩ ih

end Eng
end Flow
