import Verif.Proofs.Rounds
import Verif.Proofs.SpanRun

/-
Where panics outside of activities come from: the iterators of loops are always at a valid position, so that only the condition of a
do-while loop is left.
-/

namespace Flow
open Spec
namespace Eng

variable {env : Env} {i o : Nat}

/-- The iterator of task object `o` has not been moved before its start. -/
def Onset (o : Nat) (I : Inst) : Prop := ∀ ob : Obj, I.objs[o]? = some ob → ∀ it, ob.iter = some it → -1 ≤ it.current

theorem Onset.keep {I I' : Inst} (h : Onset o I) (k : KeepObj o I I') (hex : (I.objs[o]?).isSome) : Onset o I' := by
  intro ob' hob' it hit
  obtain ⟨ob, hob⟩ := Option.isSome_iff_exists.1 hex
  obtain ⟨ob1, h1, _, h3⟩ := k.obj ob hob
  rw [hob'] at h1; cases h1
  simp only [Obj.work, Prod.mk.injEq] at h3
  exact h ob hob it (h3.2.1 ▸ hit)

theorem Onset.stable (o : Nat) : StableAt o (Onset o) := by
  have hsame : ∀ {I I' : Inst}, I'.objs = I.objs → Onset o I → Onset o I' := fun h1 h => by unfold Onset; rw [h1]; exact h
  refine ⟨?_, ?_, ?_, ?_, ?_, ?_, ?_⟩
  · intro I I' hc h
    cases hob : I.objs[o]? with
    | none =>
      intro ob' hob' it hit
      have := hc.work.born o ob' hob' hob
      simp only [Obj.work, Prod.mk.injEq] at this
      rw [this.2.1] at hit; cases hit
    | some ob => exact h.keep (Calm.keepObj hc o) (by rw [hob]; rfl)
  · intro p I I' hp hs h ob' hob'
    rw [hs.other o (Ne.symm hp)] at hob'
    exact h ob' hob'
  · intro I a h; exact hsame (I := I) rfl h
  · intro I s h; exact hsame (I := I) rfl h
  · intro I h; exact hsame (I := I) rfl h
  · intro I h; exact hsame (I := I) rfl h
  · intro I err h; exact hsame (I := I) rfl h

theorem Onset.fresh (o : Nat) (d : Def) (uri : String) (k : Nat) (h : Option (Nat × Nat)) :
    Onset o { defn := d, uri := uri, subflowId := k, host := h } := fun ob hob => by simp at hob

/-- The iterator of a task object of a loop is at a valid position, and it exists while the task waits. -/
structure Aimed (e : Eng) (i o : Nat) : Prop where
  onset : ∀ ob td, e.obj? i o = some ob → e.taskDef? i ob.task = some td → td.kind = .iterator → ∀ it, ob.iter = some it → -1 ≤ it.current
  waits : ∀ ob td, e.obj? i o = some ob → e.taskDef? i ob.task = some td → td.kind = .iterator → ob.status = .waiting → ob.iter.isSome

/-- The iterator used by an evaluation is at a valid position. -/
theorem getIter_onset {e : Eng} {ob : Obj} {td : TaskDef} (ho : e.obj? i o = some ob) (h : ∀ it, ob.iter = some it → -1 ≤ it.current)
    {it : Iter} (hg : getIter env e i o td = .ok (some it)) : -1 ≤ it.current := by
  unfold Eng.getIter at hg
  rw [ho] at hg
  dsimp only [Option.bind_some] at hg
  split at hg
  · rename_i jt hjt
    cases hg; exact h it hjt
  · split at hg
    · cases hg
    · split at hg
      · cases hg
      · rename_i v _
        cases v with
        | null => cases hg
        | bool b => cases hg
        | int n => cases hg; exact Int.le_refl _
        | str s =>
          simp only [mkIter] at hg
          split at hg
          · cases hg; exact Int.le_refl _
          · cases hg
        | arr l => cases hg; exact Int.le_refl _
        | slice l => cases hg; exact Int.le_refl _
        | obj m => cases hg; exact Int.le_refl _

/-- At a valid position there is a value. -/
theorem value_some {it : Iter} (h : -1 ≤ it.current) (hn : it.next.2 = true) : it.next.1.value ≠ none := by
  obtain ⟨D, c⟩ := it
  have h0 : 0 ≤ c + 1 := by have : -1 ≤ c := h; omega
  unfold Iter.next Iter.bound at hn
  unfold Iter.next Iter.value
  cases D with
  | int n => exact fun h => nomatch h
  | obj ks m => exact fun h => nomatch h
  | arr l =>
    dsimp only at hn ⊢
    rw [if_neg (by omega)]
    have : ¬ (l.length : Int) ≤ c + 1 := fun hx => by rw [if_pos hx] at hn; cases hn
    rw [List.getElem?_eq_getElem (by omega)]
    exact fun h => nomatch h
  | refl l =>
    dsimp only at hn ⊢
    rw [if_neg (by omega)]
    have : ¬ (l.length : Int) ≤ c + 1 := fun hx => by rw [if_pos hx] at hn; cases hn
    rw [List.getElem?_eq_getElem (by omega)]
    exact fun h => nomatch h

theorem next_onset {it : Iter} (h : -1 ≤ it.current) : -1 ≤ it.next.1.current := by
  have h1 : it.next.1.current = it.current + 1 := rfl
  omega

/-- An evaluation of an iterator task: the iterator afterwards, and no panic. -/
theorem evalIter_aimed {e : Eng} {ob : Obj} {td : TaskDef} (ho : e.obj? i o = some ob) (htd : e.taskDef? i ob.task = some td)
    (h : ∀ it, ob.iter = some it → -1 ≤ it.current) :
    (∃ ob', (e.evalIter env i o td).1.obj? i o = some ob' ∧ (∀ it, ob'.iter = some it → -1 ≤ it.current) ∧
      ((e.evalIter env i o td).2 = .res .wait → ob'.iter.isSome)) ∧ ∀ m, (e.evalIter env i o td).2 ≠ .panic m := by
  obtain ⟨I, hI, hob⟩ := obj?_some ho
  unfold Eng.evalIter
  cases hg : getIter env e i o td with
  | error err => exact ⟨⟨ob, ho, h, (fun h => nomatch h)⟩, fun _ h => nomatch h⟩
  | ok x =>
    cases x with
    | none => exact ⟨⟨ob, ho, h, (fun h => nomatch h)⟩, fun _ h => nomatch h⟩
    | some it =>
      have hit := getIter_onset ho h hg
      dsimp only
      by_cases hv : it.next.2 = false
      · rw [if_pos hv]
        refine ⟨⟨{ ob with iter := some it.next.1, iteration := some (ob.iteration.getD (.null, .null, 0)) }, ?_, ?_, (fun h => nomatch h)⟩, fun _ h => nomatch h⟩
        · rw [obj?_eq (modI_self hI _)]
          exact modO_obj hob (fun x => { x with iter := some it.next.1, iteration := some (x.iteration.getD (.null, .null, 0)) })
        · intro jt hj; cases hj; exact next_onset hit
      · rw [if_neg hv]
        have hv1 : it.next.2 = true := by simpa using hv
        cases hval : it.next.1.value with
        | none => exact absurd hval (value_some hit hv1)
        | some v =>
          dsimp only
          have hI1 := modI_self hI (fun I => I.modO o (fun x => { x with iter := some it.next.1, iteration := some (it.next.1.key, v, it.next.1.current) }))
          have ho1 := modO_obj hob (fun x => { x with iter := some it.next.1, iteration := some (it.next.1.key, v, it.next.1.current) })
          have htd1 : (e.modI i (fun I => I.modO o (fun x => { x with iter := some it.next.1, iteration := some (it.next.1.key, v, it.next.1.current) }))).taskDef? i
              ob.task = some td := by
            unfold Eng.taskDef? at htd ⊢
            rw [hI] at htd; rw [hI1]
            exact htd
          generalize e.modI i (fun I => I.modO o (fun x => { x with iter := some it.next.1, iteration := some (it.next.1.key, v, it.next.1.current) })) = e1
            at hI1 htd1
          have hp : e1.place i o = some (ob.task, some it.next.1, some (it.next.1.key, v, it.next.1.current), ob.dwIndex) := by
            unfold place; rw [obj?_eq hI1, ho1]; rfl
          obtain ⟨a, as, _, _, _, _, hpe⟩ := evalActivity_tried (env := env) hp htd1
          have key : ∀ f : Eng, f.place i o = some (ob.task, some it.next.1, some (it.next.1.key, v, it.next.1.current), ob.dwIndex) →
              ∃ ob', f.obj? i o = some ob' ∧ (∀ it, ob'.iter = some it → -1 ≤ it.current) ∧ ob'.iter.isSome := by
            intro f hf
            obtain ⟨ob', h1, h2⟩ := place_some hf
            simp only [Prod.mk.injEq] at h2
            refine ⟨ob', h1, fun jt hj => ?_, by rw [h2.2.1]; rfl⟩
            rw [h2.2.1] at hj; cases hj; exact next_onset hit
          generalize e1.evalActivity env i o = q at hpe
          obtain ⟨e2, res⟩ := q
          dsimp only at hpe
          cases res with
          | error err =>
            obtain ⟨ob', h1, h2, h3⟩ := key _ ((place_setStatus e2 .failed).trans hpe)
            exact ⟨⟨ob', h1, h2, fun _ => h3⟩, fun _ h => nomatch h⟩
          | ok b =>
            cases b with
            | false =>
              obtain ⟨ob', h1, h2, h3⟩ := key _ ((place_setStatus e2 .waiting).trans hpe)
              exact ⟨⟨ob', h1, h2, fun _ => h3⟩, fun _ h => nomatch h⟩
            | true =>
              obtain ⟨ob', h1, h2, h3⟩ := key _ hpe
              exact ⟨⟨ob', h1, h2, fun _ => h3⟩, fun _ h => nomatch h⟩

/-- The resumption of an iterator task that has an iterator does not panic and does not wait. -/
theorem postIter_aimed {e : Eng} {ob : Obj} (ho : e.obj? i o = some ob) (h : ob.iter.isSome) :
    (∀ m, (e.postIter env i o).2 ≠ .panic m) ∧ (e.postIter env i o).2 ≠ .res .wait := by
  obtain ⟨I, hI, hob⟩ := obj?_some ho
  obtain ⟨I1, h1, h2, h3, h7⟩ := postOnce_inst (env := env) (o := o) hI
  obtain ⟨ob1, g1, g2, _, _, g5⟩ := SameWork.obj h7 hob
  simp only [Obj.work, Prod.mk.injEq] at g5
  unfold Eng.postIter
  generalize e.postOnce env i o = qq at h1
  obtain ⟨e1, r1⟩ := qq
  cases r1 with
  | error err => exact ⟨(fun _ h => nomatch h), fun h => nomatch h⟩
  | ok u =>
    dsimp only at h1 ⊢
    have h8 : (e1.setStatus i o .done).insts[i]? = some (I1.setTaskStatus o .done) := modI_self h1 _
    have h9 := setTaskStatus_obj g1 .done
    obtain ⟨it, hit⟩ := Option.isSome_iff_exists.1 h
    have h10 : ((e1.setStatus i o .done).obj? i o).bind (·.iter) = some it := by
      rw [obj?_eq h8, h9]
      exact g5.2.1.trans hit
    rw [h10]
    dsimp only
    split
    · exact ⟨(fun _ h => nomatch h), fun h => nomatch h⟩
    · exact ⟨(fun _ h => nomatch h), fun h => nomatch h⟩

theorem evaluates_task {e e' : Eng} {t : TaskRef} {r : EvalOut} (h : Evaluates env e i o t e' r) :
    ∃ ob td, e.obj? i o = some ob ∧ ob.task = t ∧ e.taskDef? i t = some td := by
  obtain ⟨⟨w, h1, h2, h3, h4⟩, ht⟩ := h
  subst h2; subst h3
  cases ho : e.obj? w.inst w.obj with
  | none => rw [ho] at ht; cases ht
  | some ob =>
    rw [ho] at ht
    have hx : ob.task = t := by simpa using ht
    obtain ⟨td, htd, _⟩ := exec_outcome (show (afterPop env e w).obj? w.inst w.obj = some ob from ho) h4
    exact ⟨ob, td, rfl, hx, hx ▸ htd⟩

/-- Which task objects begin to wait in a step. -/
theorem begins_waiting {e : Eng} (hr : Reachable env e) {ob' : Obj} (ho' : (e.step env).obj? i o = some ob') (hw : ob'.status = .waiting) :
    (∃ t e', Evaluates env e i o t e' (.res .wait)) ∨
      (∃ ob, e.obj? i o = some ob ∧ ob.status = .waiting ∧ ∀ t e' r, ¬ Evaluates env e i o t e' r) := by
  have hok := engOK_reachable hr
  have old : ∀ j p, Rests j p e (e.step env) → ¬ (i = j ∧ o = p) → ∃ ob, e.obj? i o = some ob ∧ ob.status = .waiting := by
    intro j p hR hne
    obtain ⟨I', hI', hob'⟩ := obj?_some ho'
    have hst : I'.stOf o = some .waiting := by unfold Inst.stOf; rw [hob']; simp [hw]
    cases hI : e.insts[i]? with
    | none => exact absurd hst (hR.fresh i I' hI' hI o hne)
    | some I =>
      obtain ⟨I2, h1, _, _, h2⟩ := hR.insts i I hI
      rw [hI'] at h1; cases h1
      have := (h2 o hne).2 hst
      unfold Inst.stOf at this
      cases hx : I.objs[o]? with
      | none => rw [hx] at this; cases this
      | some ob => rw [hx] at this; exact ⟨ob, by rw [obj?_eq hI]; exact hx, by simpa using this⟩
  by_cases hev : ∃ t e' r, Evaluates env e i o t e' r
  · obtain ⟨t, e', r, hev⟩ := hev
    left
    obtain ⟨ob, td, ho, ht, htd⟩ := evaluates_task hev
    have hev2 := hev
    obtain ⟨⟨w, h1, h2, h3, h4⟩, _⟩ := hev
    have h5 := (exec_rests (env := env) (show (afterPop env e w).obj? i o = some ob from ho) h4).2
    have h6 : e.step env = exec env (afterPop env e w) i o := by rw [step_next h1, h2, h3]
    rw [← h6, ho'] at h5
    have := h5.1 (by simp [hw])
    subst this
    exact ⟨t, e', hev2⟩
  · right
    have hne : ∀ t e' r, ¬ Evaluates env e i o t e' r := fun t e' r h => hev ⟨t, e', r, h⟩
    by_cases hs : e.stack = []
    · have hl : 0 < e.insts.length := by have := hok.ctr; omega
      cases hn : next env e with
      | none =>
        have h1 := step_idle hs hn hl
        rw [h1] at ho'
        exact ⟨ob', ho', hw, hne⟩
      | some w =>
        cases hout : outcome env (afterPop env e w) w.inst w.obj with
        | none =>
          rw [step_next hn, exec_none hout] at ho'
          exact ⟨ob', ho', hw, hne⟩
        | some x =>
          obtain ⟨f, q⟩ := x
          cases ho : (afterPop env e w).obj? w.inst w.obj with
          | none => unfold Spec.outcome at hout; rw [ho] at hout; cases hout
          | some ob =>
            have hR : Rests w.inst w.obj e (e.step env) := by
              rw [step_next hn]
              exact (Rests.of_waits (b := false) (e := e) (e' := afterPop env e w) (.of_insts rfl)).trans (exec_rests ho hout).1
            have hx : ¬ (i = w.inst ∧ o = w.obj) := by
              rintro ⟨rfl, rfl⟩
              exact hne ob.task f q ⟨⟨w, hn, rfl, rfl, hout⟩, by
                show ((afterPop env e w).obj? w.inst w.obj).map (·.task) = _
                rw [ho]; rfl⟩
            obtain ⟨ob0, g1, g2⟩ := old _ _ hR hx
            exact ⟨ob0, g1, g2, hne⟩
    · by_cases h0 : i = i + 1 ∧ o = o
      · omega
      · obtain ⟨ob0, g1, g2⟩ := old (i + 1) o (.of_waits (.inner hs)) h0
        exact ⟨ob0, g1, g2, hne⟩

theorem Aimed.step {e : Eng} (hr : Reachable env e) (h : Aimed e i o) : Aimed (e.step env) i o := by
  have hl : 0 < e.insts.length := by have := (engOK_reachable hr).ctr; omega
  by_cases hev : ∃ t e' r, Evaluates env e i o t e' r
  · obtain ⟨t, e', r, hev⟩ := hev
    obtain ⟨ob, td, ho, ht, htd⟩ := evaluates_task hev
    subst ht
    obtain ⟨I, hI, hob⟩ := obj?_some ho
    obtain ⟨w, _, _, _, h4, h5⟩ := evaluates_eval hev ho htd
    have main : ∀ ob' td', (e.step env).obj? i o = some ob' → (e.step env).taskDef? i ob'.task = some td' → td'.kind = .iterator →
        (∀ it, ob'.iter = some it → -1 ≤ it.current) ∧ (r = .res .wait → ob'.iter.isSome) := by
      intro ob' td' ho' htd' hk
      obtain ⟨h1, h2⟩ := task_back hr 1 (show (e.run env 1).obj? i o = some ob' from ho') htd' ho
      rw [htd] at h2; cases h2
      by_cases hw : ob.status = .waiting
      · have h6 := h4 hw
        have h7 : (afterPop env e w).postKind env i o td = (afterPop env e w).postIter env i o := by unfold Eng.postKind; rw [hk]
        rw [h7] at h6
        obtain ⟨I', h8, h9⟩ := resume_keep hev hI hob hw htd hk
        obtain ⟨ob1, g1, _, g3⟩ := h9.obj ob hob
        rw [obj?_eq h8, g1] at ho'; cases ho'
        simp only [Obj.work, Prod.mk.injEq] at g3
        refine ⟨fun it hit => h.onset ob td ho htd hk it (g3.2.1 ▸ hit), fun _ => ?_⟩
        rw [g3.2.1]; exact h.waits ob td ho htd hk hw
      · have h6 := h5 hw
        have h7 : (afterPop env e w).evalKind env i o td = (afterPop env e w).evalIter env i o td := by unfold Eng.evalKind; rw [hk]
        rw [h7] at h6
        obtain ⟨⟨ob1, g1, g2, g3⟩, _⟩ := evalIter_aimed (env := env) (e := afterPop env e w) ho htd (h.onset ob td ho htd hk)
        rw [← h6] at g1 g3
        obtain ⟨I1, hI1, hob1⟩ := obj?_some g1
        obtain ⟨I', h8, h9⟩ := evaluates_keep hev hI1
        obtain ⟨ob2, k1, _, k3⟩ := h9.obj ob1 hob1
        rw [obj?_eq h8, k1] at ho'; cases ho'
        simp only [Obj.work, Prod.mk.injEq] at k3
        exact ⟨fun it hit => g2 it (k3.2.1 ▸ hit), fun hx => by rw [k3.2.1]; exact g3 hx⟩
    refine ⟨fun ob' td' ho' htd' hk => (main ob' td' ho' htd' hk).1, fun ob' td' ho' htd' hk hw => ?_⟩
    rcases begins_waiting hr ho' hw with ⟨t2, f, hev2⟩ | ⟨_, _, _, hne⟩
    · have : r = .res .wait := by
        obtain ⟨⟨w1, a1, a2, a3, a4⟩, _⟩ := hev
        obtain ⟨⟨w2, b1, b2, b3, b4⟩, _⟩ := hev2
        rw [a1] at b1; cases b1
        rw [a4] at b4; cases b4; rfl
      exact (main ob' td' ho' htd' hk).2 this
    · exact absurd hev (hne _ _ _)
  · have hne : ∀ t e' r, ¬ Evaluates env e i o t e' r := fun t e' r h => hev ⟨t, e', r, h⟩
    obtain ⟨j, q, h1, h2⟩ := step_ops_ne (env := env) (i := i) (o := o) hl hne
    have old : ∀ ob ob' td', e.obj? i o = some ob → (e.step env).obj? i o = some ob' → (e.step env).taskDef? i ob'.task = some td' →
        e.taskDef? i ob.task = some td' ∧ ob'.iter = ob.iter := by
      intro ob ob' td' ho ho' htd'
      obtain ⟨_, g2⟩ := task_back hr 1 (show (e.run env 1).obj? i o = some ob' from ho') htd' ho
      obtain ⟨I, hI, hob⟩ := obj?_some ho
      obtain ⟨I', hI', k⟩ := h1.keep i o I (h2.elim (fun h => .inl (Ne.symm h)) .inr) hI
      obtain ⟨ob1, k1, _, k3⟩ := k.obj ob hob
      rw [obj?_eq hI', k1] at ho'; cases ho'
      simp only [Obj.work, Prod.mk.injEq] at k3
      exact ⟨g2, k3.2.1⟩
    constructor
    · intro ob' td' ho' htd' hk it hit
      cases ho : e.obj? i o with
      | some ob =>
        obtain ⟨g1, g2⟩ := old ob ob' td' ho ho' htd'
        exact h.onset ob td' ho g1 hk it (g2 ▸ hit)
      | none =>
        have : ∀ I, (e.step env).insts[i]? = some I → Onset o I := by
          refine (Onset.stable o).ops (Onset.fresh o) h1 h2 (fun I hI ob hob => ?_)
          rw [obj?_eq hI, hob] at ho; cases ho
        obtain ⟨I', hI', hob'⟩ := obj?_some ho'
        exact this I' hI' ob' hob' it hit
    · intro ob' td' ho' htd' hk hw
      rcases begins_waiting hr ho' hw with ⟨t2, f, hev2⟩ | ⟨ob, ho, hw0, _⟩
      · exact absurd hev2 (hne _ _ _)
      · obtain ⟨g1, g2⟩ := old ob ob' td' ho ho' htd'
        rw [g2]; exact h.waits ob td' ho g1 hk hw0

theorem Aimed.init (id uri : String) (d : Def) (ins : AMap String Val) : Aimed (Eng.init env id uri d ins) i o := by
  constructor
  · intro ob td ho _ _ it hit
    obtain ⟨I, hI, hob⟩ := obj?_some ho
    rw [(Unstarted.init (env := env) id uri d ins i o I hI).iter ob hob] at hit
    cases hit
  · intro ob td ho _ _ hw
    exfalso
    obtain ⟨I, hI, hob⟩ := obj?_some ho
    have hwt := WaitsE.startInstance (env := env) (i := 0) (o := 0) (Eng.new id uri d) 0 ins
    have hst : I.stOf o = some .waiting := by unfold Inst.stOf; rw [hob]; simp [hw]
    cases hI0 : (Eng.new id uri d).insts[i]? with
    | none => exact hwt.fresh i I hI hI0 o hst
    | some I0 =>
      obtain ⟨I', hI', w⟩ := hwt.insts i I0 hI0
      have hI2 : (startInstance env (Eng.new id uri d) 0 ins).insts[i]? = some I := hI
      rw [hI2] at hI'; cases hI'
      have hst0 := w.nonew o hst
      cases i with
      | zero => cases hI0; cases hst0
      | succ n => cases hI0

theorem aimed_reachable {e : Eng} (h : Reachable env e) : Aimed e i o := by
  obtain ⟨id, uri, d, ins, n, rfl⟩ := h
  induction n with
  | zero => exact .init id uri d ins
  | succ n ih => exact Aimed.step ⟨id, uri, d, ins, n, rfl⟩ ih

/-- Only the condition of a do-while loop makes an evaluation panic. -/
theorem panic_source {e e' : Eng} {t : TaskRef} {m : String} (hr : Reachable env e) (h : Evaluates env e i o t e' (.panic m)) :
    ∃ td f, e.taskDef? i t = some td ∧ td.kind = .doWhile ∧ td.hasCondition = true ∧ env.cond f i o = .panic m := by
  obtain ⟨ob, td, ho, ht, htd⟩ := evaluates_task h
  subst ht
  obtain ⟨w, _, _, _, h4, h5⟩ := evaluates_eval h ho htd
  have haim := aimed_reachable (i := i) (o := o) hr
  have hdw : ∀ f : Eng, (dwCheck env f i o td).2 = .panic m → td.hasCondition = true ∧ env.cond f i o = .panic m := by
    intro f hf
    unfold dwCheck at hf
    dsimp only at hf
    split at hf
    · rename_i hc
      refine ⟨hc, ?_⟩
      cases hx : env.cond f i o with
      | ok b => rw [hx] at hf; cases b <;> cases hf
      | err x => rw [hx] at hf; cases hf
      | panic x => rw [hx] at hf; cases hf; rfl
    · cases hf
  by_cases hw : ob.status = .waiting
  · have h6 : (.panic m : EvalOut) = ((afterPop env e w).postKind env i o td).2 := congrArg Prod.snd (h4 hw)
    unfold Eng.postKind at h6
    cases hk : td.kind with
    | basic =>
      exfalso
      rw [hk] at h6
      dsimp only at h6
      unfold Eng.postBasic at h6
      split at h6
      · cases h6
      · split at h6
        · split at h6
          · cases h6
          · split at h6
            · split at h6 <;> cases h6
            · cases h6
        · cases h6
    | iterator =>
      exfalso
      rw [hk] at h6
      exact (postIter_aimed (env := env) (e := afterPop env e w) ho (haim.waits ob td ho htd hk hw)).1 m h6.symm
    | doWhile =>
      rw [hk] at h6
      dsimp only at h6
      unfold Eng.postDoWhile at h6
      split at h6
      · cases h6
      · obtain ⟨a, b⟩ := hdw _ h6.symm
        exact ⟨td, _, htd, hk, a, b⟩
  · have h6 : (.panic m : EvalOut) = ((afterPop env e w).evalKind env i o td).2 := congrArg Prod.snd (h5 hw)
    unfold Eng.evalKind at h6
    cases hk : td.kind with
    | basic =>
      exfalso
      rw [hk] at h6
      dsimp only at h6
      unfold Eng.evalBasic at h6
      split at h6 <;> cases h6
    | iterator =>
      exfalso
      rw [hk] at h6
      exact (evalIter_aimed (env := env) (e := afterPop env e w) ho htd (haim.onset ob td ho htd hk)).2 m h6.symm
    | doWhile =>
      rw [hk] at h6
      dsimp only at h6
      unfold Eng.evalDoWhile at h6
      split at h6
      · cases h6
      · cases h6
      · obtain ⟨a, b⟩ := hdw _ h6.symm
        exact ⟨td, _, htd, hk, a, b⟩

/-- The results of evaluations: the task is done, waits, is to be evaluated again, fails or panics. -/
theorem evaluates_results {e e' : Eng} {i o : Nat} {t : TaskRef} {r : EvalOut} (h : Evaluates env e i o t e' r) :
    r = .res .done ∨ r = .res .wait ∨ r = .res .again ∨ (∃ err, r = .err err) ∨ ∃ m, r = .panic m := by
  obtain ⟨ob, td, ho, ht, htd⟩ := evaluates_task h
  subst ht
  obtain ⟨w, _, _, _, h4, h5⟩ := evaluates_eval h ho htd
  by_cases hw : ob.status = .waiting
  · obtain ⟨f, _, hf⟩ := postKind_spec (env := env) (e := afterPop env e w) ho td
    rw [← h4 hw] at hf
    cases r with
    | err err => exact .inr (.inr (.inr (.inl ⟨_, rfl⟩)))
    | panic m => exact .inr (.inr (.inr (.inr ⟨_, rfl⟩)))
    | res r =>
      cases r with
      | done => exact .inl rfl
      | wait => exact .inr (.inl rfl)
      | again => exact .inr (.inr (.inl rfl))
      | fail => exact hf.elim
      | skip => exact hf.elim
  · obtain ⟨f, _, hf⟩ := evalKind_spec (env := env) (e := afterPop env e w) ho td
    rw [← h5 hw] at hf
    cases r with
    | err err => exact .inr (.inr (.inr (.inl ⟨_, rfl⟩)))
    | panic m => exact .inr (.inr (.inr (.inr ⟨_, rfl⟩)))
    | res r =>
      cases r with
      | done => exact .inl rfl
      | wait => exact .inr (.inl rfl)
      | again => exact .inr (.inr (.inl rfl))
      | fail => exact hf.elim
      | skip => exact hf.elim

end Eng
end Flow
