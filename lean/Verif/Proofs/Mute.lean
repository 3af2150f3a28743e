import Verif.Proofs.Local
import Verif.Proofs.Loops

/-
Without activities that return or reply no flow instance has return data, and none is forced to complete.
-/

namespace Flow

/-- No activity calls `Return` or `Reply`. -/
def Spec.NoReturn (env : Env) : Prop :=
  ∀ e i o, ((env.act e i o).ret = none ∧ (env.act e i o).reply = none) ∧ (env.post e i o).ret = none ∧ (env.post e i o).reply = none

namespace Eng

open Spec

variable {env : Env} {i o : Nat} {q : Option Nat}

/-- Nothing was returned in any flow instance. -/
def Mute (e : Eng) : Prop := All (fun I => I.returnData = none ∧ I.force = false) e

theorem Mute.ops {e e' : Eng} (h : Ops env i q e e') (hq : q = none) : Mute e → Mute e' := by
  induction h with
  | refl e => exact fun h => h
  | trans _ _ ih1 ih2 => exact fun h => ih2 (ih1 h)
  | ctl h => intro hA j I hI; rw [h] at hI; exact hA j I hI
  | calm j f h => exact fun hA => hA.modI j f fun I hI hp => ⟨(h I hI).returnData.trans hp.1, (h I hI).force.trans hp.2⟩
  | attrs a _ => exact fun hA => hA.modI _ _ fun I _ hp => hp
  | same p f hs h => rw [hq] at hs; cases hs
  | @sub e p uri d inputs =>
    intro hA j J hJ
    by_cases hj : j < e.insts.length
    · have h1 := (StartFrame.startInstance (env := env) e.insts.length (e.newEmbedded i p uri d) inputs).others j (by omega)
      rw [h1, newEmbedded_getElem? _ _ _ _ _ hj] at hJ
      exact hA j J hJ
    · have hlen := (StartFrame.startInstance (env := env) e.insts.length (e.newEmbedded i p uri d) inputs).len
      have hj2 : j = e.insts.length := by
        have := (List.getElem?_eq_some_iff.1 hJ).1
        rw [hlen, newEmbedded_length] at this
        omega
      subst hj2
      obtain ⟨K, hK, hc⟩ := startInstance_calm (env := env) (e.newEmbedded i p uri d) e.insts.length inputs (newEmbedded_new _ _ _ _ _)
      rw [hJ] at hK; cases hK
      exact ⟨hc.returnData, hc.force⟩
  | completed => exact fun hA => hA.modI _ _ fun I _ hp => hp
  | failed _ => exact fun hA => hA.modI _ _ fun I _ hp => hp
  | startEH _ => exact fun hA => hA.modI _ _ fun I _ hp => hp
  | unhandled _ => exact fun hA => hA.modI _ _ fun I _ hp => hp
  | retError _ _ => exact fun hA => hA.modI _ _ fun I _ hp => hp

theorem Mute.loc {k : Bool} {e e' : Eng} (h : LocalE k i o e e') (hm : Mute e) : Mute e' := by
  obtain ⟨f, rfl, hf⟩ := h
  exact hm.modI _ _ fun I _ hp => ⟨(hf I).returnData.trans hp.1, (hf I).force.trans hp.2⟩

theorem Mute.modO {e : Eng} (hm : Mute e) (f : Obj → Obj) : Mute (e.modI i (fun I => I.modO o f)) :=
  hm.modI _ _ fun _ _ hp => hp

theorem Mute.applyActOut {e : Eng} (hm : Mute e) {a : ActOut} (h1 : a.ret = none) (h2 : a.reply = none) : Mute (e.applyActOut i o a) := by
  unfold Eng.applyActOut
  rw [h1, h2]
  dsimp only
  refine hm.modI _ _ fun I _ hp => ?_
  cases a.outputs <;> exact hp

variable (hn : NoReturn env)
include hn

theorem Mute.callActivity {e : Eng} (hm : Mute e) (ob : Obj) (td : TaskDef) : Mute (callActivity env e i o ob td).1 := by
  have h0 : Mute (e.modI i (fun I => { I with trace := .evalAct o ob.task :: I.trace })) := hm.modI _ _ fun _ _ hp => hp
  have hact := h0.applyActOut (i := i) (o := o) (hn (e.modI i (fun I => { I with trace := .evalAct o ob.task :: I.trace })) i o).1.1 (hn _ i o).1.2
  unfold Eng.callActivity
  dsimp only
  split
  · unfold Eng.startSubFlow
    split
    · exact h0
    · exact h0
    · rename_i d hd
      exact Mute.ops (env := env) (i := i) (q := none) (.sub _ _ _ _ hd) rfl h0
  · split <;> exact hact

theorem Mute.callPost {e : Eng} (hm : Mute e) (td : TaskDef) : Mute (callPost env e i o td).1 := by
  have hact := hm.applyActOut (i := i) (o := o) (hn e i o).2.1 (hn e i o).2.2
  unfold Eng.callPost
  split
  · dsimp only
    split <;> exact hact
  · exact hm

theorem Mute.evalOnce {e : Eng} (hm : Mute e) : Mute (evalOnce env e i o).1 := by
  cases ho : e.obj? i o with
  | none => unfold Eng.evalOnce; rw [ho]; exact hm
  | some ob =>
    cases htd : e.taskDef? i ob.task with
    | none => unfold Eng.evalOnce; rw [ho]; dsimp only; rw [htd]; exact hm
    | some td =>
      have h := evalOnce_once (env := env) ho htd
      generalize (Eng.evalOnce env e i o).1 = e' at h
      generalize (Eng.evalOnce env e i o).2 = r at h
      cases h with
      | failed h => exact hm.loc h
      | skipped h => exact hm.loc h
      | callFailed h _ _ h' => exact ((hm.loc h).callActivity hn _ _).loc h'
      | callWaits h _ _ => exact (hm.loc h).callActivity hn _ _
      | callDone h _ _ h' _ => exact ((hm.loc h).callActivity hn _ _).loc h'

theorem Mute.retryFrom (m : Nat) : ∀ {e : Eng}, Mute e → Mute (retryFrom env m e i o).1 := by
  induction m with
  | zero => intro e hm; exact Mute.evalOnce hn (hm.modO _)
  | succ m ih =>
    intro e hm
    have h2 := Mute.evalOnce (i := i) (o := o) hn (hm.loc (LocalE.setRetry (i := i) (o := o) e (m + 1)))
    unfold Eng.retryFrom
    generalize Eng.evalOnce env (e.setRetry i o (m + 1)) i o = q at h2
    obtain ⟨e1, x⟩ := q
    cases x with
    | ok b => exact h2
    | error err =>
      dsimp only
      split
      · exact ih h2
      · exact h2

theorem Mute.evalActivity {e : Eng} (hm : Mute e) : Mute (evalActivity env e i o).1 := by
  have h2 := Mute.evalOnce (i := i) (o := o) hn hm
  unfold Eng.evalActivity
  generalize Eng.evalOnce env e i o = q at h2
  obtain ⟨e1, x⟩ := q
  cases x with
  | ok b => exact h2
  | error err =>
    dsimp only
    split
    · have h4 := Mute.loc (LocalE.getRetry (env := env) (i := i) (o := o) e1) h2
      generalize getRetry env e1 i o = q at h4
      obtain ⟨e2, y⟩ := q
      cases y with
      | error rerr => exact h4
      | ok c =>
        dsimp only
        split
        · exact Mute.retryFrom hn _ h4
        · exact h4
    · exact h2

omit hn in
theorem Mute.setStatus {e : Eng} (hm : Mute e) (s : TaskStatus) : Mute (e.setStatus i o s) :=
  hm.modI i _ fun I _ hp => ⟨(Calm.setTaskStatus I o s).returnData.trans hp.1, (Calm.setTaskStatus I o s).force.trans hp.2⟩

theorem Mute.evalKind {e : Eng} (hm : Mute e) (td : TaskDef) : Mute (evalKind env e i o td).1 := by
  unfold Eng.evalKind
  cases hk : td.kind with
  | basic =>
    have h1 := Mute.evalActivity (i := i) (o := o) hn hm
    dsimp only
    unfold Eng.evalBasic
    generalize Eng.evalActivity env e i o = q at h1
    obtain ⟨e1, x⟩ := q
    rcases x with err | _ | _ <;> exact h1
  | iterator =>
    dsimp only
    unfold Eng.evalIter
    split
    · exact hm
    · exact hm
    · rename_i it hit
      dsimp only
      split
      · exact hm.modO _
      · split
        · exact hm
        · rename_i v hv
          have h1 := Mute.evalActivity (i := i) (o := o) hn (hm.modO (i := i) (o := o) (fun x => { x with iter := some it.next.1, iteration := some (it.next.1.key, v, it.next.1.current) }))
          generalize Eng.evalActivity env _ i o = q at h1
          obtain ⟨e1, x⟩ := q
          rcases x with err | _ | _
          · exact Mute.setStatus h1 .failed
          · exact Mute.setStatus h1 .waiting
          · exact h1
  | doWhile =>
    dsimp only
    unfold Eng.evalDoWhile
    have h1 := Mute.evalActivity (i := i) (o := o) hn (hm.loc (LocalE.dwInit (i := i) (o := o) e))
    generalize Eng.evalActivity env (e.dwInit i o) i o = q at h1
    obtain ⟨e1, x⟩ := q
    rcases x with err | _ | _
    · exact Mute.setStatus h1 .failed
    · exact Mute.setStatus h1 .waiting
    · exact h1.modO _

theorem Mute.postOnce {e : Eng} (hm : Mute e) : Mute (postOnce env e i o).1 := by
  unfold Eng.postOnce
  split
  · exact hm
  · split
    · exact hm
    · rename_i ob _ _ td _
      have h0 : Mute (e.modI i (fun I => { I with trace := .postAct o ob.task :: I.trace })) := hm.modI _ _ fun _ _ hp => hp
      have h1 := Mute.callPost (i := i) (o := o) hn h0 td
      generalize Eng.callPost env _ i o td = q at h1
      obtain ⟨e1, x⟩ := q
      cases x with
      | error err => exact h1
      | ok b =>
        dsimp only
        split
        · exact h1
        · split
          · exact Mute.loc (k := true) (LocalE.postStore e1 ob td) h1
          · exact h1

theorem Mute.postKind {e : Eng} (hm : Mute e) (td : TaskDef) : Mute (postKind env e i o td).1 := by
  unfold Eng.postKind
  cases hk : td.kind with
  | basic =>
    have h1 := Mute.postOnce (i := i) (o := o) hn hm
    dsimp only
    unfold Eng.postBasic
    generalize Eng.postOnce env e i o = q at h1
    obtain ⟨e1, x⟩ := q
    cases x with
    | ok u => exact h1
    | error err =>
      dsimp only
      split
      · have h4 := Mute.loc (LocalE.getRetry (env := env) (i := i) (o := o) e1) h1
        generalize getRetry env e1 i o = q at h4
        obtain ⟨e2, y⟩ := q
        cases y with
        | error rerr => exact h4
        | ok n =>
          dsimp only
          split
          · have h5 := Mute.retryFrom (i := i) (o := o) hn (n.toNat - 1) h4
            generalize Eng.retryFrom env (n.toNat - 1) e2 i o = q at h5
            obtain ⟨e3, z⟩ := q
            rcases z with err | _ | _ <;> exact h5
          · exact h4
      · exact h1
  | iterator =>
    have h1 := Mute.postOnce (i := i) (o := o) hn hm
    dsimp only
    unfold Eng.postIter
    generalize Eng.postOnce env e i o = q at h1
    obtain ⟨e1, x⟩ := q
    cases x with
    | error err => exact Mute.setStatus h1 .failed
    | ok u =>
      dsimp only
      split
      · exact Mute.setStatus h1 .done
      · exact Mute.setStatus h1 .done
  | doWhile =>
    have h1 := Mute.postOnce (i := i) (o := o) hn (hm.loc (LocalE.dwInit (i := i) (o := o) e))
    dsimp only
    unfold Eng.postDoWhile
    generalize Eng.postOnce env (e.dwInit i o) i o = q at h1
    obtain ⟨e1, x⟩ := q
    cases x with
    | error err => exact Mute.setStatus h1 .failed
    | ok u => exact (Mute.setStatus h1 .done).modO _

theorem Mute.exec {e : Eng} (hm : Mute e) : Mute (e.exec env i o) := by
  unfold Eng.exec
  split
  · exact hm
  · split
    · exact hm
    · split
      · exact Mute.ops (q := none) (.handleResult _ _ _ _ _ _) rfl (Mute.postKind hn hm _)
      · exact hm
      · exact hm
      · exact Mute.ops (q := none) (.handleResult _ _ _ _ _ _) rfl (Mute.evalKind hn hm _)

theorem Mute.step {e : Eng} (hl : 0 < e.insts.length) (hm : Mute e) : Mute (e.step env) := by
  cases h : Spec.next env e with
  | some w =>
    rw [step_next h]
    exact Mute.exec hn (Mute.ops (env := env) (i := 0) (q := none) (.ctl (e' := afterPop env e w) rfl) rfl hm)
  | none =>
    by_cases hst : e.stack = []
    · rw [step_idle hst h hl]
      exact hm
    · exact Mute.ops (q := none) (.inner hst) rfl hm

/-- Without activities that return or reply nothing is ever returned. -/
theorem Mute.reachable {e : Eng} (h : Reachable env e) : Mute e := by
  obtain ⟨id, uri, d, ins, n, rfl⟩ := h
  induction n with
  | zero =>
    intro j J hJ
    have hlen := (StartFrame.startInstance (env := env) 0 (Eng.new id uri d) ins).len
    have hj : j = 0 := by
      have := (List.getElem?_eq_some_iff.1 hJ).1
      have h2 : (Eng.run env (Eng.init env id uri d ins) 0).insts.length = 1 := hlen
      omega
    subst hj
    obtain ⟨K, hK, hc⟩ := startInstance_calm (env := env) (Eng.new id uri d) 0 ins (I := { defn := d, uri := uri }) rfl
    have hJ : (Eng.startInstance env (Eng.new id uri d) 0 ins).insts[0]? = some J := hJ
    rw [hJ] at hK; cases hK
    exact ⟨hc.returnData, hc.force⟩
  | succ n ih => exact Mute.step hn (insts_pos ⟨id, uri, d, ins, n, rfl⟩) ih

end Eng
end Flow
