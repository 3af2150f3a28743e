import Verif.Model.Recording
import Verif.Proofs.Run
import Verif.Proofs.GraphUse

namespace Flow
namespace Eng
open Spec

variable {env : Env}

theorem modI_at {e : Eng} {i : Nat} {f : Inst → Inst} {I : Inst} (h : e.insts[i]? = some I) : (e.modI i f).insts[i]? = some (f I) := by
  rw [modI_getElem?, if_pos rfl, h]; rfl

theorem midGlobal_spec {e m : Eng} {i : Nat} (h : e.midGlobal i = some m) (err : Err) :
    i ≠ 0 ∧ e.globalError i err = m.failHost i err ∧ ∃ I, m.insts[i]? = some I ∧ I.status = .failed := by
  unfold midGlobal at h
  cases hI : e.insts[i]? with
  | none => rw [hI] at h; cases h
  | some I =>
    rw [hI] at h
    dsimp only at h
    split at h
    · cases h
    · rename_i hh
      cases he : I.defn.eh with
      | some _ => rw [he] at h; cases h
      | none =>
        rw [he] at h
        dsimp only at h
        split at h
        · cases h
        · rename_i h0
          cases h
          refine ⟨h0, ?_, _, modI_at (modI_at hI), rfl⟩
          unfold globalError
          rw [hI]
          dsimp only
          rw [if_neg hh, he]
          dsimp only
          rw [if_neg h0]

theorem midTaskError_spec {e m : Eng} {i o : Nat} {t : TaskRef} {err : Err} (h : e.midTaskError i o t err = some m) :
    i ≠ 0 ∧ e.taskError i o t err = m.failHost i err ∧ ∃ I, m.insts[i]? = some I ∧ I.status = .failed := by
  unfold midTaskError at h
  cases hI : e.insts[i]? with
  | none => rw [hI] at h; cases h
  | some I =>
    rw [hI] at h
    dsimp only at h
    split at h
    · cases h
    · rename_i I1 hE
      have heq : e.taskError i o t err = if I.handling then (if i = 0 then ((e.modI i (fun _ => I1)).modI i (fun J => J.setFlowStatus .failed)).appendErrorData i t.id err
          else ((e.modI i (fun _ => I1)).modI i (fun J => J.setFlowStatus .failed)).failHost i err)
          else (((e.modI i (fun _ => I1)).appendErrorData i t.id err).globalError i err) := by
        unfold taskError
        rw [hI]
        dsimp only
        rw [hE]
      rw [heq]
      split at h
      · rename_i hh
        split at h
        · cases h
        · rename_i h0
          cases h
          rw [if_pos hh, if_neg h0]
          exact ⟨h0, rfl, _, modI_at (modI_at hI), rfl⟩
      · rename_i hh
        rw [if_neg hh]
        exact midGlobal_spec h err

theorem midTaskDone_spec {e m : Eng} {i o : Nat} {t : TaskRef} (h : midTaskDone env e i o t = some m) :
    i ≠ 0 ∧ (∃ err, taskDone env e i o t = m.failHost i err) ∧ ∃ I, m.insts[i]? = some I ∧ I.status = .failed := by
  unfold midTaskDone at h
  cases hI : e.insts[i]? with
  | none => rw [hI] at h; cases h
  | some I =>
    rw [hI] at h
    dsimp only at h
    split at h
    · cases h
    · rename_i I1 msg hD
      obtain ⟨h1, h2, h3⟩ := midGlobal_spec h (.plain ("error handling task done transition for task [" ++ e.taskName i t ++ "] in flow [" ++ e.topName ++ "] : " ++ msg))
      refine ⟨h1, ⟨_, Eq.trans ?_ h2⟩, h3⟩
      unfold taskDone
      rw [hI]
      dsimp only
      rw [hD]

theorem midResult_spec {e m : Eng} {b : Bool} {i o : Nat} {t : TaskRef} {name : String} {r : EvalOut}
    (h : midResult env e i o t name r = some (m, b)) :
    i ≠ 0 ∧ (∃ err, handleResult env e i o t name r = m.failHost i err) ∧ (∃ I, m.insts[i]? = some I ∧ I.status = .failed) ∧
      (b = true ↔ ∃ msg, r = .panic msg) := by
  cases r with
  | err err =>
    unfold midResult at h
    rw [Option.map_eq_some_iff] at h
    obtain ⟨m', h, e'⟩ := h
    cases e'
    obtain ⟨h1, h2, h3⟩ := midTaskError_spec h
    exact ⟨h1, ⟨err, h2⟩, h3, Iff.intro (fun h => nomatch h) (fun ⟨_, h⟩ => nomatch h)⟩
  | res x =>
    have key : ∀ y : EvalOut, (midTaskDone env e i o t).map (·, false) = some (m, b) → handleResult env e i o t name y = taskDone env e i o t →
        (∀ msg, y ≠ .panic msg) → i ≠ 0 ∧ (∃ err, handleResult env e i o t name y = m.failHost i err) ∧
        (∃ I, m.insts[i]? = some I ∧ I.status = .failed) ∧ (b = true ↔ ∃ msg, y = .panic msg) := by
      intro y hy hd hp
      rw [Option.map_eq_some_iff] at hy
      obtain ⟨m', hy, e'⟩ := hy
      cases e'
      obtain ⟨h1, ⟨err, h2⟩, h3⟩ := midTaskDone_spec hy
      exact ⟨h1, ⟨err, hd.trans h2⟩, h3, Iff.intro (fun h => nomatch h) (fun ⟨_, h⟩ => absurd h (hp _))⟩
    cases x with
    | done => exact key (.res .done) h rfl (fun _ h => nomatch h)
    | skip => exact key (.res .skip) h rfl (fun _ h => nomatch h)
    | _ => cases h
  | panic msg =>
    unfold midResult at h
    cases hI : e.insts[i]? with
    | none => rw [hI] at h; cases h
    | some I =>
      rw [hI] at h
      dsimp only at h
      split at h
      · cases h
      · rename_i hh
        rw [Option.map_eq_some_iff] at h
        obtain ⟨m', h, e'⟩ := h
        cases e'
        obtain ⟨h1, h2, h3⟩ := midGlobal_spec h (.plain ("unhandled Error executing task '" ++ t.id ++ "' : " ++ msg))
        refine ⟨h1, ⟨_, Eq.trans ?_ h2⟩, h3, Iff.intro (fun _ => ⟨msg, rfl⟩) (fun _ => rfl)⟩
        unfold handleResult
        dsimp only
        rw [hI]
        dsimp only
        rw [if_neg hh]

theorem midExec_outcome {e : Eng} {i o : Nat} {x : Eng × Bool} (h : midExec env e i o = some x) :
    ∃ ob td e' r, e.obj? i o = some ob ∧ e.taskDef? i ob.task = some td ∧ outcome env e i o = some (e', r) ∧
      midResult env e' i o ob.task td.name r = some x := by
  unfold midExec at h
  cases ho : e.obj? i o with
  | none => rw [ho] at h; cases h
  | some ob =>
    rw [ho] at h
    dsimp only at h
    cases ht : e.taskDef? i ob.task with
    | none => rw [ht] at h; cases h
    | some td =>
      rw [ht] at h
      dsimp only at h
      refine ⟨ob, td, ?_⟩
      cases hs : ob.status <;> rw [hs] at h <;> first
        | (cases h; done)
        | exact ⟨_, _, rfl, ht, by unfold Spec.outcome; rw [ho]; dsimp only; rw [ht]; dsimp only; rw [hs]; rfl, h⟩

/-- A flow that another flow has called fails in this step, and what the step does after `RecordState` is to hand the error to
the calling task. -/
theorem midStep_spec {e m : Eng} {b : Bool} (h : e.midStep env = some (m, b)) :
    ∃ w ob e' r, next env e = some w ∧ (afterPop env e w).obj? w.inst w.obj = some ob ∧
      outcome env (afterPop env e w) w.inst w.obj = some (e', r) ∧ w.inst ≠ 0 ∧
      (∃ err, e.step env = m.failHost w.inst err) ∧ (∃ I, m.insts[w.inst]? = some I ∧ I.status = .failed) ∧ (b = true ↔ ∃ msg, r = .panic msg) := by
  unfold midStep at h
  cases hs : e.stack with
  | cons f fs => rw [hs] at h; cases h
  | nil =>
    rw [hs] at h
    dsimp only at h
    unfold midDoStep at h
    cases hI : e.insts[0]? with
    | none => rw [hI] at h; cases h
    | some I =>
      rw [hI] at h
      dsimp only at h
      split at h
      · rename_i ha
        cases hq : e.queue[env.pick e % e.queue.length]? with
        | none => rw [hq] at h; cases h
        | some w =>
          rw [hq] at h
          dsimp only at h
          have hn : next env e = some w := by
            unfold Spec.next Spec.flowStatus
            rw [if_pos ⟨hs, by rw [hI, ← ha]; rfl⟩, hq]
          have h' : midExec env (afterPop env e w) w.inst w.obj = some (m, b) := h
          obtain ⟨ob, td, e', r, h1, h2, h3, h4⟩ := midExec_outcome h'
          obtain ⟨k1, ⟨err, k2⟩, k3, k4⟩ := midResult_spec h4
          obtain ⟨td', t1, t2⟩ := exec_outcome h1 h3
          rw [h2] at t1; cases t1
          exact ⟨w, ob, e', r, hn, h1, h3, k1, ⟨err, by rw [step_next hn, t2, k2]⟩, k3, k4⟩
      · cases h

theorem failHost_len' (m : Eng) (i : Nat) (err : Err) : (m.failHost i err).insts.length = m.insts.length := by
  unfold failHost
  split
  · rfl
  · split
    · rfl
    · show (m.modI _ _).insts.length = _
      rw [modI_length]

theorem failHost_executed (m : Eng) (i : Nat) (err : Err) : executed (m.failHost i err) = executed m := by
  unfold failHost
  split
  · rfl
  · split
    · rfl
    · unfold Spec.executed
      show List.countP isRemoved (QEv.added _ :: m.qlog) = _
      rw [List.countP_cons]
      rfl

/-- What giving the error to the calling task leaves alone. -/
theorem failHost_inst (m : Eng) (i : Nat) (err : Err) {j : Nat} {J : Inst} (h : (m.failHost i err).insts[j]? = some J) :
    ∃ I, m.insts[j]? = some I ∧ I.defn = J.defn ∧ I.status = J.status ∧ I.handling = J.handling := by
  unfold failHost at h
  split at h
  · exact ⟨J, h, rfl, rfl, rfl⟩
  · split at h
    · exact ⟨J, h, rfl, rfl, rfl⟩
    · rename_i hi ho _
      have h' : (m.modI hi (fun H => H.modO ho (fun x => { x with returnError := some err }))).insts[j]? = some J := h
      rw [modI_getElem?] at h'
      split at h'
      · cases hm : m.insts[j]? with
        | none => rw [hm] at h'; cases h'
        | some I =>
          rw [hm] at h'
          cases h'
          exact ⟨I, rfl, rfl, rfl, rfl⟩
      · exact ⟨J, h', rfl, rfl, rfl⟩

/-- No operation changes the definition of a flow instance. -/
theorem Ops.defn {i : Nat} {q : Option Nat} {e e' : Eng} (h : Ops env i q e e') {j : Nat} {I : Inst} (hI : e.insts[j]? = some I) :
    ∃ J, e'.insts[j]? = some J ∧ J.defn = I.defn := by
  have mod : ∀ {e : Eng} {k : Nat} {f : Inst → Inst} {I : Inst}, e.insts[j]? = some I → (∀ K, e.insts[k]? = some K → (f K).defn = K.defn) →
      ∃ J, (e.modI k f).insts[j]? = some J ∧ J.defn = I.defn := by
    intro e k f I hI hf
    by_cases hk : k = j
    · subst hk; exact ⟨f I, modI_at hI, hf I hI⟩
    · exact ⟨I, by rw [modI_ne hk]; exact hI, rfl⟩
  induction h generalizing I with
  | refl e => exact ⟨I, hI, rfl⟩
  | trans _ _ ih1 ih2 =>
    obtain ⟨J, h1, h2⟩ := ih1 hI
    obtain ⟨K, h3, h4⟩ := ih2 h1
    exact ⟨K, h3, h4.trans h2⟩
  | ctl h => exact ⟨I, by rw [h]; exact hI, rfl⟩
  | calm k f h => exact mod hI fun K hK => (h K hK).defn
  | same o f _ h => exact mod hI fun K hK => (h K hK).defn
  | @sub e o uri d inputs =>
    have hl : j < e.insts.length := (List.getElem?_eq_some_iff.mp hI).1
    exact ⟨I, by rw [(StartFrame.startInstance (env := env) _ _ _).others j (by omega), newEmbedded_getElem? _ _ _ _ _ hl]; exact hI, rfl⟩
  | _ => exact mod hI fun K _ => rfl

/-- What a step without recorder has in common with the step of the same state. -/
theorem stepUntaped_spec (e : Eng) :
    (e.stepUntaped env).1.insts.length = (e.step env).insts.length ∧ executed (e.stepUntaped env).1 = executed (e.step env) ∧
    ∀ (j : Nat) (J : Inst), (e.step env).insts[j]? = some J → ∃ I, (e.stepUntaped env).1.insts[j]? = some I ∧ I.defn = J.defn ∧ I.status = J.status := by
  unfold stepUntaped
  cases hm : e.midStep env with
  | none => exact ⟨rfl, rfl, fun j J h => ⟨J, h, rfl, rfl⟩⟩
  | some x =>
    obtain ⟨m, b⟩ := x
    obtain ⟨w, _, _, _, _, _, _, _, ⟨err, hst⟩, _⟩ := midStep_spec hm
    rw [hst]
    refine ⟨(failHost_len' _ _ _).symm, (failHost_executed _ _ _).symm, fun j J h => ?_⟩
    obtain ⟨I, h1, h2, h3, _⟩ := failHost_inst _ _ _ h
    exact ⟨I, h1, h2, h3⟩

/-- The called flow is failed after the step. -/
theorem midStep_failed {e m : Eng} {b : Bool} (h : e.midStep env = some (m, b)) : ∃ i, i ≠ 0 ∧ flowStatus (e.step env) i = some .failed := by
  obtain ⟨w, _, _, _, _, _, _, hw, ⟨err, hs⟩, ⟨I, hI, hf⟩, _⟩ := midStep_spec h
  refine ⟨w.inst, hw, ?_⟩
  rw [hs]
  obtain ⟨J, hJ⟩ : ∃ J, (m.failHost w.inst err).insts[w.inst]? = some J := by
    have := (List.getElem?_eq_some_iff.mp hI).1
    exact ⟨_, List.getElem?_eq_getElem (by rw [failHost_len']; exact this)⟩
  obtain ⟨K, hK, _, hks, _⟩ := failHost_inst _ _ _ hJ
  rw [hI] at hK; cases hK
  unfold Spec.flowStatus
  rw [hJ]
  show some J.status = _
  rw [← hks, hf]

end Eng
end Flow
