import Verif.Proofs.Loops
import Verif.Proofs.SpanTry
import Verif.Props.Retry
import Verif.Spec.Rounds

/-
Rounds of loops that consist of several attempts.
-/

namespace Flow
open Spec
namespace Eng

variable {env : Env} {i o : Nat}

/-- What a loop keeps at its task instance. -/
def place (e : Eng) (i o : Nat) : Option (TaskRef × Option Iter × Option (Val × Val × Int) × Option Nat) :=
  (e.obj? i o).map (fun x => (x.task, x.iter, x.iteration, x.dwIndex))

theorem place_some {e : Eng} {x : TaskRef × Option Iter × Option (Val × Val × Int) × Option Nat} (h : e.place i o = some x) :
    ∃ ob, e.obj? i o = some ob ∧ (ob.task, ob.iter, ob.iteration, ob.dwIndex) = x := by
  unfold place at h
  cases ho : e.obj? i o with
  | none => rw [ho] at h; cases h
  | some ob => rw [ho] at h; exact ⟨ob, rfl, Option.some.inj h⟩

theorem place_of_local {e e' : Eng} (h : LocalE true i o e e') : e'.place i o = e.place i o := by
  have h1 := h.work
  have h2 := h.task
  unfold place
  cases ha : e'.obj? i o with
  | none =>
    cases hb : e.obj? i o with
    | none => rfl
    | some y => rw [ha, hb] at h1; cases h1
  | some x =>
    cases hb : e.obj? i o with
    | none => rw [ha, hb] at h1; cases h1
    | some y =>
      rw [ha, hb] at h1 h2
      simp only [Option.map_some, Option.some.injEq, Obj.work, Prod.mk.injEq] at h1 h2 ⊢
      exact ⟨h2, h1.2⟩

theorem place_of_inst {e e' : Eng} (h : e'.insts[i]? = e.insts[i]?) : e'.place i o = e.place i o := by
  unfold place Eng.obj?; rw [h]

theorem place_called (e : Eng) (t : TaskRef) : (e.called i o t).place i o = e.place i o := by
  unfold place; rw [called_obj]

theorem place_applyActOut {e : Eng} {I : Inst} (hI : e.insts[i]? = some I) (a : ActOut) : (e.applyActOut i o a).place i o = e.place i o := by
  obtain ⟨I', h1, _, _, h4⟩ := applyActOut_inst (o := o) hI a
  unfold place
  rw [obj?_eq hI, obj?_eq h1]
  have := h4 o
  cases ha : I'.objs[o]? with
  | none =>
    cases hb : I.objs[o]? with
    | none => rfl
    | some y => rw [ha, hb] at this; cases this
  | some x =>
    cases hb : I.objs[o]? with
    | none => rw [ha, hb] at this; cases this
    | some y =>
      rw [ha, hb] at this
      simp only [Option.map_some, Option.some.injEq, Obj.work, Prod.mk.injEq] at this ⊢
      exact ⟨this.1, this.2.2.2.2.1, this.2.2.2.2.2⟩

theorem place_callActivity {e : Eng} {ob : Obj} (ho : e.obj? i o = some ob) (td : TaskDef) :
    (e.callActivity env i o ob td).1.place i o = e.place i o := by
  obtain ⟨I, hI, _⟩ := obj?_some ho
  have h0 := place_called (i := i) (o := o) e ob.task
  have hI0 := called_inst (o := o) (t := ob.task) hI
  have hact : ((e.called i o ob.task).applyActOut i o (env.act (e.called i o ob.task) i o)).place i o = e.place i o :=
    (place_applyActOut hI0 _).trans h0
  unfold Eng.callActivity
  dsimp only
  split
  · rename_i uri _
    refine Eq.trans ?_ h0
    show Eng.place (startSubFlow env (e.called i o ob.task) i o uri _).1 i o = _
    generalize e.called i o ob.task = f at hI0
    unfold Eng.startSubFlow
    split
    · rfl
    · rfl
    · rename_i d _
      have hlt : i < f.insts.length := (List.getElem?_eq_some_iff.1 hI0).1
      refine place_of_inst ?_
      dsimp only
      rw [(StartFrame.startInstance (env := env) _ _ _).others i (by omega)]
      exact newEmbedded_getElem? f i o uri d hlt
  · split <;> exact hact

theorem place_evalOnce {e : Eng} {ob : Obj} {td : TaskDef} (ho : e.obj? i o = some ob) (htd : e.taskDef? i ob.task = some td) :
    (e.evalOnce env i o).1.place i o = e.place i o := by
  have h := evalOnce_once (env := env) ho htd
  generalize (e.evalOnce env i o).1 = e' at h
  generalize (e.evalOnce env i o).2 = r at h
  cases h with
  | failed h => exact place_of_local h
  | skipped h => exact place_of_local h
  | callFailed h ho hc h' => exact (place_of_local h').trans ((place_callActivity ho td).trans (place_of_local h))
  | callWaits h ho hc => exact (place_callActivity ho td).trans (place_of_local h)
  | callDone h ho hc h' hr => exact (place_of_local h').trans ((place_callActivity ho td).trans (place_of_local h))

theorem place_unseen {e e' : Eng} (h : Unseen e e') : e'.place i o = e.place i o := by
  have key : ∀ e : Eng, (withoutRetries e).place i o = e.place i o := by
    intro e
    unfold place Eng.obj? withoutRetries
    dsimp only
    rw [List.getElem?_map]
    cases e.insts[i]? with
    | none => rfl
    | some I =>
      dsimp only [Option.map_some]
      rw [List.getElem?_map]
      cases I.objs[o]? <;> rfl
  rw [← key e', ← key e, h]

theorem taskDef_unseen {e e' : Eng} (h : Unseen e e') (t : TaskRef) : e'.taskDef? i t = e.taskDef? i t := by
  have key : ∀ e : Eng, (withoutRetries e).taskDef? i t = e.taskDef? i t := by
    intro e
    unfold Eng.taskDef? withoutRetries
    dsimp only
    rw [List.getElem?_map]
    cases e.insts[i]? <;> rfl
  rw [← key e', ← key e, h]

/-- All attempts of an evaluation are made in the same round. -/
theorem _root_.Flow.Spec.Retried.place {a : Attempt} {as : List Attempt} {n : Nat} (h : Retried env i o a as n) {td : TaskDef}
    {x : TaskRef × Option Iter × Option (Val × Val × Int) × Option Nat} (hp : a.before.place i o = some x)
    (htd : a.before.taskDef? i x.1 = some td) :
    (∀ b ∈ a :: as, b.before.place i o = some x) ∧ (lastAttempt a as).after.place i o = some x := by
  induction as generalizing a n with
  | nil =>
    obtain ⟨ob, ho, hx⟩ := place_some hp
    have hr : Eng.evalOnce env a.before i o = (a.after, a.result) := h.real
    refine ⟨fun b hb => ?_, ?_⟩
    · rw [List.mem_singleton.1 hb]; exact hp
    · have := place_evalOnce (env := env) ho (hx ▸ htd)
      rw [hr] at this
      exact this.trans hp
  | cons b bs ih =>
    obtain ⟨ob, ho, hx⟩ := place_some hp
    obtain ⟨hr, _, hu, h⟩ := h
    have hr : Eng.evalOnce env a.before i o = (a.after, a.result) := hr
    have h1 := place_evalOnce (env := env) ho (hx ▸ htd)
    have hev := Evals.evalOnce (env := env) (i := i) (o := o) a.before
    rw [hr] at h1 hev
    cases n with
    | zero => exact False.elim h
    | succ n =>
      obtain ⟨I, hI⟩ := inst_of_obj ho
      obtain ⟨h2, h3⟩ := ih h ((place_unseen hu).trans (h1.trans hp)) ((taskDef_unseen hu _).trans ((hev.taskDef? hI _).trans htd))
      refine ⟨fun c hc => ?_, h3⟩
      rcases List.mem_cons.1 hc with rfl | hc
      · exact hp
      · exact h2 c hc

/-- An evaluation of the activity as a sequence of attempts in the same round. -/
theorem evalActivity_tried {e : Eng} {td : TaskDef} {x : TaskRef × Option Iter × Option (Val × Val × Int) × Option Nat}
    (hp : e.place i o = some x) (htd : e.taskDef? i x.1 = some td) :
    ∃ a as, a.before = e ∧ TriedAs env i o td a as (e.evalActivity env i o).2 ∧ (∀ b ∈ a :: as, b.before.place i o = some x) ∧
      (∀ j, Spec.calls (e.evalActivity env i o).1 j = Spec.calls (lastAttempt a as).after j) ∧
      (e.evalActivity env i o).1.place i o = some x := by
  obtain ⟨ob, ho, hx⟩ := place_some hp
  obtain ⟨a, as, hb, h⟩ := C19_attempts (env := env) ho (hx ▸ htd)
  have hpa : a.before.place i o = some x := hb ▸ hp
  have htda : a.before.taskDef? i x.1 = some td := hb ▸ htd
  refine ⟨a, as, hb, ?_⟩
  obtain ⟨h, hu⟩ := h
  have key : ∀ {n}, Retried env i o a as n → (∀ b ∈ a :: as, b.before.place i o = some x) ∧
      (∀ j, Spec.calls (e.evalActivity env i o).1 j = Spec.calls (lastAttempt a as).after j) ∧
      (e.evalActivity env i o).1.place i o = some x := by
    intro n hret
    obtain ⟨h2, h3⟩ := hret.place hpa htda
    exact ⟨h2, hu.calls, (place_unseen hu).trans h3⟩
  refine ⟨h, ?_⟩
  generalize (e.evalActivity env i o).2 = res at h
  cases h with
  | none hreal hag hn => exact key (n := 0) ⟨hreal, fun _ => rfl⟩
  | all hn hret => exact key hret

theorem place_setStatus (e : Eng) (st : TaskStatus) : (e.setStatus i o st).place i o = e.place i o := by
  unfold place Eng.obj? Eng.setStatus
  rw [modI_getElem?, if_pos rfl]
  cases e.insts[i]? with
  | none => rfl
  | some I =>
    dsimp only [Option.map_some]
    cases ho : I.objs[o]? with
    | none =>
      have : (I.setTaskStatus o st).objs[o]? = none := by
        unfold Inst.setTaskStatus; rw [ho]
        exact ho
      rw [this]
    | some ob => rw [setTaskStatus_obj ho]; rfl

/-- A round of an iterator. -/
theorem evalIter_tried {e : Eng} {ob : Obj} {td : TaskDef} (ho : e.obj? i o = some ob) (htd : e.taskDef? i ob.task = some td)
    {xs : List (Val × Val)} {it : Iter} {k : Nat} (hg : getIter env e i o td = .ok (some it)) (hk : IterAt xs it k) :
    (∃ ob' it', (e.evalIter env i o td).1.obj? i o = some ob' ∧ ob'.task = ob.task ∧ ob'.iter = some it' ∧ IterAt xs it' (k + 1)) ∧
    (∀ x, xs[k]? = some x → ∃ a as res, TriedAs env i o td a as res ∧ (∀ b ∈ a :: as, iterationAt b.before i o = some (x.1, x.2, (k : Int))) ∧
      (∀ j, Spec.calls a.before j = Spec.calls e j) ∧ (∀ j, Spec.calls (e.evalIter env i o td).1 j = Spec.calls (lastAttempt a as).after j) ∧
      (e.evalIter env i o td).2 = roundResult (.res .again) res) ∧
    (xs.length ≤ k → (e.evalIter env i o td).2 = .res .done ∧ ∀ j, Spec.calls (e.evalIter env i o td).1 j = Spec.calls e j) := by
  have hv := hk.next_valid
  obtain ⟨I, hI, hob⟩ := obj?_some ho
  unfold Eng.evalIter
  rw [hg]
  dsimp only
  by_cases hlt : k < xs.length
  · have hx : xs[k]? = some xs[k] := List.getElem?_eq_getElem hlt
    obtain ⟨hkey, hval, hcur⟩ := hk.next_elem hx
    rw [if_neg (by rw [hv]; simp [hlt]), hval]
    dsimp only
    have hl1 : LocalE false i o e (e.modI i (fun I => I.modO o (fun x =>
        { x with iter := some it.next.1, iteration := some (it.next.1.key, xs[k].2, it.next.1.current) }))) :=
      .mk' _ _ (fun _ => .modO _ (fun _ => ⟨rfl, rfl, rfl⟩) (fun h => nomatch h))
    have hI1 : (e.modI i (fun I => I.modO o (fun x =>
        { x with iter := some it.next.1, iteration := some (it.next.1.key, xs[k].2, it.next.1.current) }))).insts[i]? =
        some (I.modO o (fun x => { x with iter := some it.next.1, iteration := some (it.next.1.key, xs[k].2, it.next.1.current) })) :=
      modI_self hI _
    have ho1 := modO_obj hob (fun x => { x with iter := some it.next.1, iteration := some (it.next.1.key, xs[k].2, it.next.1.current) })
    generalize (e.modI i (fun I => I.modO o (fun x =>
        { x with iter := some it.next.1, iteration := some (it.next.1.key, xs[k].2, it.next.1.current) }))) = e1 at hl1 hI1
    have hp1 : e1.place i o = some (ob.task, some it.next.1, some (it.next.1.key, xs[k].2, it.next.1.current), ob.dwIndex) := by
      unfold place; rw [obj?_eq hI1, ho1]; rfl
    have htd1 : e1.taskDef? i ob.task = some td := by rw [hl1.taskDef]; exact htd
    obtain ⟨a, as, hb, ht, hpl, hc, hpe⟩ := evalActivity_tried (env := env) hp1 htd1
    have hit : ∀ b ∈ a :: as, iterationAt b.before i o = some (xs[k].1, xs[k].2, (k : Int)) := by
      intro b hb
      obtain ⟨ob', ho', hx'⟩ := place_some (hpl b hb)
      unfold iterationAt
      rw [ho']
      simp only [Prod.mk.injEq] at hx'
      rw [Option.bind_some, hx'.2.2.1, hkey, hcur]
    have hca : ∀ j, Spec.calls a.before j = Spec.calls e j := fun j => by rw [hb]; exact hl1.calls j
    have fin : ∀ (e' : Eng) (r : EvalOut), e'.place i o = (e1.evalActivity env i o).1.place i o →
        (∀ j, Spec.calls e' j = Spec.calls (e1.evalActivity env i o).1 j) →
        r = roundResult (.res .again) (e1.evalActivity env i o).2 →
        (∃ ob' it', e'.obj? i o = some ob' ∧ ob'.task = ob.task ∧ ob'.iter = some it' ∧ IterAt xs it' (k + 1)) ∧
        (∀ x, xs[k]? = some x → ∃ a as res, TriedAs env i o td a as res ∧ (∀ b ∈ a :: as, iterationAt b.before i o = some (x.1, x.2, (k : Int))) ∧
          (∀ j, Spec.calls a.before j = Spec.calls e j) ∧ (∀ j, Spec.calls e' j = Spec.calls (lastAttempt a as).after j) ∧
          r = roundResult (.res .again) res) ∧
        (xs.length ≤ k → r = .res .done ∧ ∀ j, Spec.calls e' j = Spec.calls e j) := by
      intro e' r h1 h2 h3
      refine ⟨?_, fun x hx' => ⟨a, as, _, ht, ?_, hca, fun j => (h2 j).trans (hc j), h3⟩, fun h => absurd hlt (by omega)⟩
      · obtain ⟨ob', ho', hx'⟩ := place_some (h1.trans hpe)
        simp only [Prod.mk.injEq] at hx'
        exact ⟨ob', it.next.1, ho', hx'.1, hx'.2.1, hk.next⟩
      · rw [hx] at hx'; cases hx'; exact hit
    generalize e1.evalActivity env i o = q at fin
    obtain ⟨e2, res⟩ := q
    cases res with
    | error err => exact fin _ _ (place_setStatus _ _) (fun j => calls_setStatus_all _ _ _) rfl
    | ok b =>
      cases b with
      | true => exact fin _ _ rfl (fun j => rfl) rfl
      | false => exact fin _ _ (place_setStatus _ _) (fun j => calls_setStatus_all _ _ _) rfl
  · rw [if_pos (by rw [hv]; simp [hlt])]
    refine ⟨⟨{ ob with iter := some it.next.1, iteration := some (ob.iteration.getD (.null, .null, 0)) }, it.next.1, ?_, rfl, rfl, hk.next⟩,
      fun x hx' => ?_, fun _ => ⟨rfl, ?_⟩⟩
    · rw [obj?_eq (modI_self hI _)]; exact modO_obj hob _
    · rw [List.getElem?_eq_none (by omega)] at hx'; cases hx'
    · exact (LocalE.mk' (k := false) (i := i) (o := o) e (fun I => I.modO o (fun x =>
        { x with iter := some it.next.1, iteration := some (x.iteration.getD (.null, .null, 0)) }))
        (fun _ => .modO _ (fun _ => ⟨rfl, rfl, rfl⟩) (fun h => nomatch h))).calls

/-- A round of a do-while task. -/
theorem evalDoWhile_tried {e : Eng} {ob : Obj} {td : TaskDef} (ho : e.obj? i o = some ob) (htd : e.taskDef? i ob.task = some td) :
    (∃ a as res f, TriedAs env i o td a as res ∧ (∀ b ∈ a :: as, indexAt b.before i o = some (ob.dwIndex.getD 0)) ∧
      (∀ j, Spec.calls a.before j = Spec.calls e j) ∧ (∀ j, Spec.calls f j = Spec.calls (lastAttempt a as).after j) ∧
      (∀ j, Spec.calls (e.evalDoWhile env i o td).1 j = Spec.calls (lastAttempt a as).after j) ∧
      indexAt f i o = some (ob.dwIndex.getD 0) ∧
      (e.evalDoWhile env i o td).2 = roundResult (afterCondition (if td.hasCondition then some (env.cond f i o) else none)) res) ∧
    ((e.evalDoWhile env i o td).2 = .res .wait → ∃ ob', (e.evalDoWhile env i o td).1.obj? i o = some ob' ∧ ob'.dwIndex.getD 0 = ob.dwIndex.getD 0) ∧
    ((e.evalDoWhile env i o td).2 = .res .again → ∃ ob', (e.evalDoWhile env i o td).1.obj? i o = some ob' ∧ ob'.dwIndex.getD 0 = ob.dwIndex.getD 0 + 1) := by
  obtain ⟨I, hI, hob⟩ := obj?_some ho
  have hl1 : LocalE false i o e (e.dwInit i o) := .mk' _ _ (fun _ => .modO _ (fun _ => ⟨rfl, rfl, rfl⟩) (fun h => nomatch h))
  have hI1 : (e.dwInit i o).insts[i]? = some (I.modO o (fun x => { x with dwIndex := some (x.dwIndex.getD 0) })) := modI_self hI _
  have ho1 := modO_obj hob (fun x => { x with dwIndex := some (x.dwIndex.getD 0) })
  have hp1 : (e.dwInit i o).place i o = some (ob.task, ob.iter, ob.iteration, some (ob.dwIndex.getD 0)) := by
    unfold place; rw [obj?_eq hI1, ho1]; rfl
  have htd1 : (e.dwInit i o).taskDef? i ob.task = some td := by rw [hl1.taskDef]; exact htd
  unfold Eng.evalDoWhile
  generalize e.dwInit i o = e1 at hl1 hp1 htd1
  obtain ⟨a, as, hb, ht, hpl, hc, hpe⟩ := evalActivity_tried (env := env) hp1 htd1
  have hidx : ∀ f : Eng, f.place i o = some (ob.task, ob.iter, ob.iteration, some (ob.dwIndex.getD 0)) →
      ∃ ob', f.obj? i o = some ob' ∧ ob'.dwIndex = some (ob.dwIndex.getD 0) := by
    intro f hf
    obtain ⟨ob', ho', hx'⟩ := place_some hf
    simp only [Prod.mk.injEq] at hx'
    exact ⟨ob', ho', hx'.2.2.2⟩
  have hix : ∀ f : Eng, f.place i o = some (ob.task, ob.iter, ob.iteration, some (ob.dwIndex.getD 0)) →
      indexAt f i o = some (ob.dwIndex.getD 0) := by
    intro f hf
    obtain ⟨ob', h1, h2⟩ := hidx f hf
    unfold indexAt; rw [h1]; exact h2
  have hit : ∀ b ∈ a :: as, indexAt b.before i o = some (ob.dwIndex.getD 0) := fun b hb => hix _ (hpl b hb)
  have hca : ∀ j, Spec.calls a.before j = Spec.calls e j := fun j => by rw [hb]; exact hl1.calls j
  generalize e1.evalActivity env i o = q at ht hc hpe
  obtain ⟨e2, res⟩ := q
  dsimp only at ht hc hpe
  cases res with
  | error err =>
    exact ⟨⟨a, as, _, e2, ht, hit, hca, hc, fun j => (calls_setStatus_all _ _ _).trans (hc j), hix _ hpe, rfl⟩, (fun h => nomatch h), (fun h => nomatch h)⟩
  | ok b =>
    cases b with
    | false =>
      refine ⟨⟨a, as, _, e2, ht, hit, hca, hc, fun j => (calls_setStatus_all _ _ _).trans (hc j), hix _ hpe, rfl⟩, fun _ => ?_, (fun h => nomatch h)⟩
      obtain ⟨ob', h1, h2⟩ := hidx _ ((place_setStatus e2 .waiting).trans hpe)
      exact ⟨ob', h1, by rw [h2]; rfl⟩
    | true =>
      have hr : (dwCheck env e2 i o td).2 = roundResult (afterCondition (if td.hasCondition then some (env.cond e2 i o) else none)) (.ok true) := by
        unfold dwCheck
        dsimp only
        split
        · cases env.cond e2 i o with
          | ok b => cases b <;> rfl
          | err _ => rfl
          | panic _ => rfl
        · rfl
      have hl2 : LocalE false i o e2 (e2.dwUpdate i o) := .mk' _ _ (fun _ => .modO _ (fun _ => ⟨rfl, rfl, rfl⟩) (fun h => nomatch h))
      refine ⟨⟨a, as, _, e2, ht, hit, hca, hc, fun j => (hl2.calls j).trans (hc j), hix _ hpe, hr⟩, fun h => ?_, fun h => ?_⟩
      · exfalso
        unfold dwCheck at h
        dsimp only at h
        split at h
        · cases hcd : env.cond e2 i o with
          | ok b => rw [hcd] at h; cases b <;> cases h
          | err _ => rw [hcd] at h; cases h
          | panic _ => rw [hcd] at h; cases h
        · cases h
      · obtain ⟨ob', h1, h2⟩ := hidx _ hpe
        obtain ⟨I2, hI2, hob2⟩ := obj?_some h1
        refine ⟨{ ob' with dwIndex := some (ob'.dwIndex.getD 0 + 1) }, ?_, by rw [h2]; rfl⟩
        show (e2.dwUpdate i o).obj? i o = _
        unfold dwUpdate
        rw [obj?_eq (modI_self hI2 _)]
        exact modO_obj hob2 _

/-- The resumption of a do-while task never waits; if it repeats the task it advances the index. -/
theorem postDoWhile_index {e : Eng} {ob : Obj} {td : TaskDef} (ho : e.obj? i o = some ob) :
    (e.postDoWhile env i o td).2 ≠ .res .wait ∧
    ((e.postDoWhile env i o td).2 = .res .again → ∃ ob', (e.postDoWhile env i o td).1.obj? i o = some ob' ∧ ob'.dwIndex.getD 0 = ob.dwIndex.getD 0 + 1) := by
  obtain ⟨I, hI, hob⟩ := obj?_some ho
  have hI0 : (e.dwInit i o).insts[i]? = some (I.modO o (fun x => { x with dwIndex := some (x.dwIndex.getD 0) })) := modI_self hI _
  have ho0 := modO_obj hob (fun x => { x with dwIndex := some (x.dwIndex.getD 0) })
  obtain ⟨I1, h1, h2, h3, h4⟩ := postOnce_inst (env := env) (o := o) hI0
  obtain ⟨ob1, g1, g2, _, _, g5⟩ := SameWork.obj h4 ho0
  simp only [Obj.work, Prod.mk.injEq] at g5
  unfold Eng.postDoWhile
  generalize (e.dwInit i o).postOnce env i o = qq at h1
  obtain ⟨e1, r⟩ := qq
  cases r with
  | error err => exact ⟨(fun h => nomatch h), (fun h => nomatch h)⟩
  | ok u =>
    dsimp only at h1 ⊢
    have h5 : (e1.setStatus i o .done).insts[i]? = some (I1.setTaskStatus o .done) := modI_self h1 _
    have h6 := setTaskStatus_obj g1 .done
    refine ⟨fun h => ?_, fun _ => ?_⟩
    · unfold dwCheck at h
      dsimp only at h
      split at h
      · cases hcd : env.cond (e1.setStatus i o .done) i o with
        | ok b => rw [hcd] at h; cases b <;> cases h
        | err _ => rw [hcd] at h; cases h
        | panic _ => rw [hcd] at h; cases h
      · cases h
    · refine ⟨{ ob1 with status := .done, dwIndex := some (ob1.dwIndex.getD 0 + 1) }, ?_, ?_⟩
      · show ((e1.setStatus i o .done).dwUpdate i o).obj? i o = _
        unfold dwUpdate
        rw [obj?_eq (modI_self h5 _)]
        exact modO_obj h6 _
      · dsimp only
        rw [g5.2.2.2]; rfl

/-- The task object, if it exists, is at index `k` of its do-while loop. -/
structure Indexed (o k : Nat) (I : Inst) : Prop where
  none : I.objs[o]? = none → k = 0
  some : ∀ ob : Obj, I.objs[o]? = some ob → ob.dwIndex.getD 0 = k

theorem Indexed.keep {k : Nat} {I I' : Inst} (h : Indexed o k I) (g : KeepObj o I I') {ob : Obj} (hob : I.objs[o]? = .some ob) : Indexed o k I' := by
  obtain ⟨ob1, h1, h2, h3⟩ := g.obj ob hob
  refine ⟨fun hn => (by rw [h1] at hn; cases hn), fun ob' hob' => ?_⟩
  rw [hob'] at h1; cases h1
  simp only [Obj.work, Prod.mk.injEq] at h3
  rw [h3.2.2.2]; exact h.some ob hob

theorem Indexed.stable (o k : Nat) : StableAt o (Indexed o k) := by
  have hsame : ∀ {I I' : Inst}, I'.objs = I.objs → Indexed o k I → Indexed o k I' := fun h1 h => ⟨by rw [h1]; exact h.none, by rw [h1]; exact h.some⟩
  refine ⟨?_, ?_, ?_, ?_, ?_, ?_, ?_⟩
  · intro I I' hc h
    cases hob : I.objs[o]? with
    | none =>
      refine ⟨fun _ => h.none hob, fun ob' hob' => ?_⟩
      have := hc.work.born o ob' hob' hob
      simp only [Obj.work, Prod.mk.injEq] at this
      rw [this.2.2.2, h.none hob]; rfl
    | some ob => exact h.keep (Calm.keepObj hc o) hob
  · intro p I I' hp hs h
    have h1 := hs.other o (Ne.symm hp)
    exact ⟨fun hn => h.none (h1 ▸ hn), fun ob' hob' => h.some ob' (h1 ▸ hob')⟩
  · intro I a h; exact hsame (I := I) rfl h
  · intro I s h; exact hsame (I := I) rfl h
  · intro I h; exact hsame (I := I) rfl h
  · intro I h; exact hsame (I := I) rfl h
  · intro I err h; exact hsame (I := I) rfl h

theorem Indexed.fresh (o : Nat) (d : Def) (uri : String) (k : Nat) (h : Option (Nat × Nat)) :
    Indexed o 0 { defn := d, uri := uri, subflowId := k, host := h } :=
  ⟨fun _ => rfl, fun ob hob => by simp at hob⟩

/-- The loop of the task object is about to visit element `k`. -/
def Position (xs : List (Val × Val)) (i o : Nat) (t : TaskRef) (e : Eng) (k : Nat) : Prop :=
  ∃ I ob it, e.insts[i]? = some I ∧ I.objs[o]? = some ob ∧ ob.task = t ∧ ob.iter = some it ∧ IterAt xs it k

theorem Position.keep {xs : List (Val × Val)} {t : TaskRef} {e e' : Eng} {n : Nat} (h : Position xs i o t e n)
    (hk : ∀ I, e.insts[i]? = some I → ∃ I', e'.insts[i]? = some I' ∧ KeepObj o I I') : Position xs i o t e' n := by
  obtain ⟨I, ob, it, h1, h2, h3, h4, h5⟩ := h
  obtain ⟨I', h7, h8⟩ := hk I h1
  obtain ⟨ob', h9, h10, h11⟩ := h8.obj ob h2
  simp only [Obj.work, Prod.mk.injEq] at h11
  exact ⟨I', ob', it, h7, h9, h10.trans h3, h11.2.1.trans h4, h5⟩

theorem Position.idle {xs : List (Val × Val)} {t : TaskRef} {e : Eng} {n : Nat} (h : Position xs i o t e n) (hl : 0 < e.insts.length)
    (hns : ∀ t e' r, ¬ Starts env e i o t e' r) {td : TaskDef} (htd : e.taskDef? i t = some td) (hkind : td.kind = .iterator) :
    Position xs i o t (e.step env) n := by
  refine h.keep fun I hI => ?_
  by_cases hev : ∃ t e' r, Evaluates env e i o t e' r
  · obtain ⟨t', e', r, hev⟩ := hev
    obtain ⟨I0, ob, it, h1, h2, h3, _⟩ := h
    rw [hI] at h1; cases h1
    have hw : ob.status = .waiting := by
      apply Classical.byContradiction
      intro hw
      refine hns t' e' r ⟨hev, fun ob' ho' => ?_⟩
      rw [obj?_eq hI, h2] at ho'; cases ho'; exact hw
    exact resume_keep hev hI h2 hw (h3 ▸ htd) hkind
  · exact step_keep (env := env) hl (fun t e' r hh => hev ⟨t, e', r, hh⟩) hI

/-- What one evaluation of an iterator task does that is about to visit element `k`. -/
structure Tries (env : Env) (i o : Nat) (td : TaskDef) (xs : List (Val × Val)) (k : Nat) (e e' : Eng) (r : EvalOut) : Prop where
  visit : ∀ x, xs[k]? = some x → ∃ a as res, TriedAs env i o td a as res ∧
    (∀ b ∈ a :: as, iterationAt b.before i o = some (x.1, x.2, (k : Int))) ∧
    (∀ j, Spec.calls a.before j = Spec.calls e j) ∧ (∀ j, Spec.calls e' j = Spec.calls (lastAttempt a as).after j) ∧
    r = roundResult (.res .again) res
  stop : xs.length ≤ k → r = .res .done ∧ ∀ j, Spec.calls e' j = Spec.calls e j

theorem tries_of_getIter {e e' : Eng} {t : TaskRef} {r : EvalOut} (h : Starts env e i o t e' r) {I : Inst}
    {ob : Obj} {td : TaskDef} (hI : e.insts[i]? = some I) (ho : I.objs[o]? = some ob) (htd : e.taskDef? i ob.task = some td)
    (hkind : td.kind = .iterator) {xs : List (Val × Val)} {it : Iter} {k : Nat}
    (hg : ∀ w, next env e = some w → getIter env (afterPop env e w) i o td = .ok (some it)) (hk : IterAt xs it k) :
    Tries env i o td xs k e e' r ∧ Position xs i o t (e.step env) (k + 1) := by
  obtain ⟨hev, hnw⟩ := h
  have hob : e.obj? i o = some ob := by rw [obj?_eq hI]; exact ho
  have ht : ob.task = t := by have := hev.task; rw [hob] at this; cases this; rfl
  obtain ⟨w, hn, _, _, _, h5⟩ := evaluates_eval hev hob htd
  have h6 := h5 (hnw ob hob)
  have h7 : (afterPop env e w).evalKind env i o td = (afterPop env e w).evalIter env i o td := by
    unfold Eng.evalKind; rw [hkind]
  rw [h7] at h6
  obtain ⟨⟨ob1, it1, h8, h10, h11, h12⟩, h14, h15⟩ :=
    evalIter_tried (env := env) (show (afterPop env e w).obj? i o = some ob from hob)
      (show (afterPop env e w).taskDef? i ob.task = some td from htd) (hg w hn) hk
  rw [← h6] at h8 h14 h15
  refine ⟨⟨h14, h15⟩, ?_⟩
  obtain ⟨I1, h8, h9⟩ := obj?_some h8
  obtain ⟨I2, h16, h17⟩ := evaluates_keep hev h8
  have : Position xs i o t e' (k + 1) := ⟨I1, ob1, it1, h8, h9, h10.trans ht, h11, h12⟩
  exact this.keep (fun J hJ => by rw [h8] at hJ; cases hJ; exact ⟨I2, h16, h17⟩)

end Eng
end Flow
