import Verif.Proofs.LiftStep
import Verif.Props.Trace
import Verif.Proofs.Ops
import Verif.Proofs.Handler
import Verif.Proofs.Fail
import Verif.Proofs.GraphEng

/-
The error handler as a flow of its own: how it starts.
-/

namespace Flow

open Spec

namespace Lift

variable {env : Env}

/-! ### Names of attributes are unique -/

def UniqueAttrs (I : Inst) : Prop := I.attrs.keys.Nodup

theorem startAttrs_unique (e : Eng) (I : Inst) (h : I.attrs = []) (p : Option (String × String)) (ins : AMap String Val) :
    (e.startAttrs env I p ins).keys.Nodup := by
  unfold Eng.startAttrs
  rw [h]
  exact AMap.nodup_keys_update (AMap.nodup_keys_update (AMap.nodup_keys_update (m := []) List.nodup_nil _) _) _

theorem unique_ops {k : Nat} {q : Option Nat} {e e' : Eng} (h : Eng.Ops env k q e e') : Eng.All UniqueAttrs e → Eng.All UniqueAttrs e' := by
  induction h with
  | refl e => exact fun h => h
  | trans _ _ ih1 ih2 => exact fun h => ih2 (ih1 h)
  | ctl h => intro hA i I hI; rw [h] at hI; exact hA i I hI
  | calm j f h => exact fun hA => hA.modI j f fun I hI hu => by unfold UniqueAttrs; rw [(h I hI).attrs]; exact hu
  | attrs a h => exact fun hA => hA.modI k _ fun I _ hu => h I hu
  | same o f hq h => exact fun hA => hA.modI k f fun I hI hu => (h I hI).keys hu
  | @sub e o uri d inputs =>
    intro hA j J hJ
    by_cases hj : j < e.insts.length
    · have h1 := (Eng.StartFrame.startInstance (env := env) e.insts.length (e.newEmbedded k o uri d) inputs).others j (by omega)
      rw [h1, Eng.newEmbedded_getElem? _ _ _ _ _ hj] at hJ
      exact hA j J hJ
    · have hlen := (Eng.StartFrame.startInstance (env := env) e.insts.length (e.newEmbedded k o uri d) inputs).len
      have hj2 : j = e.insts.length := by
        have := (List.getElem?_eq_some_iff.1 hJ).1
        rw [hlen, Eng.newEmbedded_length] at this
        omega
      subst hj2
      obtain ⟨I', h2, h3⟩ := Eng.startInstance_calm (env := env) (e.newEmbedded k o uri d) e.insts.length inputs (Eng.newEmbedded_new e k o uri d)
      rw [h2] at hJ; cases hJ
      unfold UniqueAttrs
      rw [h3.attrs]
      exact startAttrs_unique _ _ rfl _ _
  | completed => exact fun hA => hA.modI k _ fun I _ hu => hu
  | failed h => exact fun hA => hA.modI k _ fun I _ hu => hu
  | startEH h => exact fun hA => hA.modI k _ fun I _ hu => hu
  | unhandled h => exact fun hA => hA.modI k _ fun I _ hu => hu
  | retError err h => exact fun hA => hA.modI k _ fun I _ hu => hu

theorem unique_reachable {e : Eng} (h : Reachable env e) : Eng.All UniqueAttrs e := by
  obtain ⟨id, uri, d, ins, n, rfl⟩ := h
  induction n with
  | zero =>
    intro j J hJ
    simp only [Eng.run, Eng.init] at hJ
    have hlen := (Eng.StartFrame.startInstance (env := env) 0 (Eng.new id uri d) ins).len
    have hj : j = 0 := by
      have := (List.getElem?_eq_some_iff.1 hJ).1
      rw [hlen] at this
      simp [Eng.new] at this
      exact this
    subst hj
    obtain ⟨I', h2, h3⟩ := Eng.startInstance_calm (env := env) (Eng.new id uri d) 0 ins (I := { defn := d, uri := uri }) rfl
    rw [h2] at hJ; cases hJ
    unfold UniqueAttrs
    rw [h3.attrs]
    exact startAttrs_unique _ _ rfl _ _
  | succ n ih => exact unique_ops (Eng.Ops.step (Eng.engOK_run id uri d ins n).length_pos) ih

/-! ### The state in which it starts -/

/-- The error handler has just been started. -/
structure Fresh (e : Eng) (I : Inst) : Prop where
  insts : e.insts = [I]
  cur : e.cur = 0
  stack : e.stack = [.enter (Inst.startEntries I.defn true)]
  handling : I.handling = true
  tasks : I.tasks = []
  status : I.status = .active
  objs : ∀ ob ∈ I.objs, ob.task.eh = false
  links : ∀ k ∈ I.links.keys, ∃ l ∈ I.defn.main.links, l.id = k

theorem from_global {X : Eng} (hX : Eng.AllEh X) {K : Inst} (hK : X.insts = [K]) (hh : K.handling = false) (hs : K.status = .active) (err : Err)
    {I0 : Inst} (h0 : (X.globalError 0 err).insts = [I0]) {g : Graph} (hg : I0.defn.eh = some g) (hns : InstOK I0) :
    Fresh (X.globalError 0 err) I0 := by
  have hI : X.insts[0]? = some K := by rw [hK]; rfl
  cases heh : K.defn.eh with
  | none =>
    exfalso
    unfold Eng.globalError at h0
    rw [hI] at h0
    simp only [hh, heh] at h0
    have h1 : I0.defn = K.defn := by
      unfold Eng.modI at h0
      rw [hK] at h0
      cases h0
      rfl
    rw [h1, heh] at hg
    cases hg
  | some g' =>
    have h1 := Eng.globalError_handler hI hh heh err
    rw [h1] at h0 ⊢
    have h2 : ((X.modI 0 (fun J => J.clearTasks)).modI 0 (fun J => { J with handling := true, trace := .ehStart :: J.trace })).insts =
        [({ K.clearTasks with handling := true, trace := .ehStart :: K.clearTasks.trace } : Inst)] := by
      unfold Eng.modI
      rw [hK]
      rfl
    have h3 : I0 = ({ K.clearTasks with handling := true, trace := .ehStart :: K.clearTasks.trace } : Inst) := by
      have h4 := h2.symm.trans h0
      cases h4
      rfl
    subst h3
    have h4 : .ehStart ∉ K.trace := fun hm => hns.trace.1 (List.mem_cons_of_mem _ hm)
    have hE := hX 0 K hI
    refine ⟨h2, rfl, rfl, rfl, rfl, hs, fun ob hob => ?_, fun k hk => ?_⟩
    · cases he : ob.task.eh with
      | false => rfl
      | true => exact absurd (hE.objs ob hob he) h4
    · exact (hE.links k hk).resolve_right h4

theorem one_of_len {e : Eng} {I : Inst} (h : e.insts[0]? = some I) (hl : e.insts.length = 1) : e.insts = [I] := by
  generalize e.insts = l at h hl
  cases l with
  | nil => cases h
  | cons J l =>
    cases l with
    | nil => rw [Option.some.inj h]
    | cons K l => simp at hl

theorem begins_handle {e : Eng} (hA : Eng.AllEh e) {I : Inst} (hI : e.insts = [I]) (hh : I.handling = false) (hs : I.status = .active)
    {o : Nat} {ob : Obj} (hob : I.objs[o]? = some ob) {t : TaskRef} (ht : ob.task = t) (name : String) (r : Eng.EvalOut) {I0 : Inst} {g : Graph}
    (h0 : (Eng.handleResult env e 0 o t name r).insts = [I0]) (h1 : I0.handling = true) (hg : I0.defn.eh = some g) (hns : InstOK I0) :
    Fresh (Eng.handleResult env e 0 o t name r) I0 := by
  have hI0 : e.insts[0]? = some I := by rw [hI]; rfl
  have hE := hA 0 I hI0
  have heh : t.eh = true → .ehStart ∈ I.trace := fun he => hE.objs ob (List.mem_of_getElem? hob) (by rw [ht]; exact he)
  have mod1 : ∀ (e : Eng) (I : Inst) (f : Inst → Inst), e.insts = [I] → (e.modI 0 f).insts = [f I] := by
    intro e I f h; unfold Eng.modI; rw [h]; rfl
  have gone : ∀ {J : Inst}, (Eng.handleResult env e 0 o t name r).insts = [J] → J.handling = false → False := by
    intro J hJ hn
    rw [hJ] at h0
    cases h0
    rw [hn] at h1
    cases h1
  have hdone : r = .res .done ∨ r = .res .skip → Fresh (Eng.handleResult env e 0 o t name r) I0 := by
    intro hr
    have hst : Eng.handleResult env e 0 o t name r = Eng.taskDone env e 0 o t := by
      rcases hr with rfl | rfl <;> rfl
    rw [hst] at h0 gone ⊢
    unfold Eng.taskDone at h0 gone ⊢
    rw [hI0] at h0 gone ⊢
    dsimp only at h0 gone ⊢
    have hc := Calm.doneTask env.prio (env.link e 0) I o t
    have hd := hE.doneTask env.prio (env.link e 0) o heh
    generalize I.doneTask env.prio (env.link e 0) o t = q at h0 gone hc hd ⊢
    obtain ⟨I1, y⟩ := q
    have m1 := mod1 e I (fun _ => I1) hI
    cases y with
    | error m =>
      dsimp only at h0 ⊢
      refine from_global (K := (I1.setValue "_E" _).setValue ("_E." ++ t.id) _) (Eng.AllEh.errorData (hA.mod _ fun _ _ _ => hd) _ _ _)
        (mod1 _ _ _ m1) (hc.handling.trans hh) (hc.status.trans hs) _ h0 hg hns
    | ok es =>
      exfalso
      have hI1 : (e.modI 0 (fun _ => I1)).insts[0]? = some I1 := by rw [m1]; rfl
      dsimp only at gone
      unfold Eng.finishTask at gone
      rw [hI1] at gone
      dsimp only at gone
      split at gone
      · refine gone (J := I1.setFlowStatus .completed) ?_ (hc.handling.trans hh)
        show ((e.modI 0 (fun _ => I1)).complete 0).insts = _
        unfold Eng.complete
        rw [hI1]
        exact mod1 _ _ _ m1
      · exact gone m1 (hc.handling.trans hh)
  cases r with
  | err er =>
    have hst : Eng.handleResult env e 0 o t name (.err er) = e.taskError 0 o t er := rfl
    rw [hst] at h0 gone ⊢
    unfold Eng.taskError at h0 gone ⊢
    rw [hI0] at h0 gone ⊢
    dsimp only at h0 gone ⊢
    have hc := Calm.errorTask I o t
    have hd := hE.errorTask o heh
    generalize I.errorTask o t = q at h0 gone hc hd ⊢
    obtain ⟨I1, y⟩ := q
    have m1 := mod1 e I (fun _ => I1) hI
    cases y with
    | some es => exact (gone (mod1 e I _ hI) (hc.handling.trans hh)).elim
    | none =>
      dsimp only at h0 ⊢
      rw [hh] at h0 ⊢
      exact from_global (K := (I1.setValue "_E" _).setValue ("_E." ++ t.id) _) (Eng.AllEh.errorData (hA.mod _ fun _ _ _ => hd) _ _ _)
        (mod1 _ _ _ m1) (hc.handling.trans hh) (hc.status.trans hs) _ h0 hg hns
  | panic m =>
    unfold Eng.handleResult at h0 ⊢
    rw [hI0] at h0 ⊢
    dsimp only at h0 ⊢
    rw [hh] at h0 ⊢
    exact from_global (K := (I.setValue "_E" _).setValue ("_E." ++ t.id) _) (hA.errorData _ _ _) (mod1 _ _ _ hI) hh hs _ h0 hg hns
  | res y =>
    cases y with
    | done => exact hdone (.inl rfl)
    | skip => exact hdone (.inr rfl)
    | fail => exact (gone (mod1 e I _ hI) ((Calm.setTaskStatus I o _).handling.trans hh)).elim
    | wait => exact (gone (mod1 e I _ hI) ((Calm.setTaskStatus I o _).handling.trans hh)).elim
    | again => exact (gone (J := I) hI hh).elim

theorem begins {e : Eng} {I0 : Inst} {g : Graph} (hr : Reachable env e) (h : StartsHandler env e I0 g) : Fresh (Eng.step env e) I0 := by
  obtain ⟨I, hI, hn⟩ := h.before
  have hI0 : e.insts[0]? = some I := by rw [hI]; rfl
  have hr' : Reachable env (Eng.step env e) := by
    obtain ⟨id, uri, d, ins, n, rfl⟩ := hr
    exact ⟨id, uri, d, ins, n + 1, rfl⟩
  have hns : InstOK I0 := (Eng.engOK_reachable hr').ok 0 I0 (by rw [h.after]; rfl)
  have hA := (Eng.ehOK_reachable hr).all
  have mod1 : ∀ (e : Eng) (I : Inst) (f : Inst → Inst), e.insts = [I] → (e.modI 0 f).insts = [f I] := by
    intro e I f h; unfold Eng.modI; rw [h]; rfl
  have gone : ∀ {J : Inst}, (Eng.step env e).insts = [J] → J.handling = false → False := by
    intro J hJ hn
    have h0 := h.after
    have h1 := h.handling
    rw [hJ] at h0
    cases h0
    rw [hn] at h1
    cases h1
  cases hst : e.stack with
  | nil =>
    cases hx : next env e with
    | none =>
      rw [Eng.step_idle hst hx (by rw [hI]; exact Nat.one_pos)] at gone
      exact (gone (J := I) hI hn).elim
    | some w =>
      have hstep := Eng.step_next hx
      have hact : I.status = .active := by
        have h1 := (Eng.next_some hx).2.1
        unfold flowStatus at h1
        rw [hI0] at h1
        exact Option.some.inj h1
      have hp : Eng.AllEh (afterPop env e w) := hA.ctl rfl
      cases ho : outcome env (afterPop env e w) w.inst w.obj with
      | none =>
        rw [Eng.exec_none ho] at hstep
        rw [hstep] at gone
        exact (gone (J := I) hI hn).elim
      | some x =>
        obtain ⟨e', r⟩ := x
        obtain ⟨ob, hob⟩ : ∃ ob, (afterPop env e w).obj? w.inst w.obj = some ob := by
          unfold Spec.outcome at ho
          cases h : (afterPop env e w).obj? w.inst w.obj with
          | none => rw [h] at ho; cases ho
          | some ob => exact ⟨ob, rfl⟩
        obtain ⟨td, htd, hex⟩ := Eng.exec_outcome hob ho
        rw [hex] at hstep
        obtain ⟨J, hJ, hJo⟩ := Eng.obj?_some hob
        have hJ' : e.insts[w.inst]? = some J := hJ
        have hw : w.inst = 0 := by
          have := (List.getElem?_eq_some_iff.1 hJ').1
          rw [hI] at this
          exact Nat.lt_one_iff.1 this
        rw [hw] at hJ' hJ ho hstep
        rw [hI0] at hJ'
        cases hJ'
        obtain ⟨J', hJ', hd, hhd, hss, _, _, _, _, _, hobjs⟩ := Eng.outcome_inst ho hJ
        obtain ⟨ob', hob', htask⟩ := hobjs w.obj ob hJo
        obtain ⟨e1, h1, h2⟩ := Eng.outcome_evals ho
        have h3 := Eng.AllEh.evals h1 hp
        have h4 : Eng.AllEh e' := by
          rcases h2 with rfl | ⟨st, rfl⟩
          · exact h3
          · exact h3.mod _ fun J _ hE => hE.setTaskStatus _ st
        have hlen : e'.insts.length = 1 := by
          rw [← GraphM.handleResult_len (env := env) e' 0 w.obj ob.task td.name r, ← hstep, h.after]; rfl
        have h0 := h.after
        rw [hstep] at h0 ⊢
        exact begins_handle h4 (one_of_len hJ' hlen) (hhd.trans hn) (hss.trans hact) hob' htask _ _ h0 h.handling h.handler hns
  | cons f rest =>
    exfalso
    unfold Eng.step at gone
    rw [hst] at gone
    have hcur : ∀ {K}, e.insts[e.cur]? = some K → e.cur = 0 := by
      intro K hK
      have := (List.getElem?_eq_some_iff.1 hK).1
      rw [hI] at this
      exact Nat.lt_one_iff.1 this
    cases f with
    | release t =>
      dsimp only at gone
      cases hc : e.insts[e.cur]? with
      | none =>
        refine gone (J := I) ?_ hn
        show (e.modI e.cur _).insts = [I]
        unfold Eng.modI
        rw [← hI]
        apply List.ext_getElem?
        intro m
        rw [List.getElem?_modify]
        split
        · rename_i hm; rw [← hm, hc]; rfl
        · cases e.insts[m]? <;> rfl
      | some K =>
        rw [hcur hc] at gone
        exact gone (mod1 e I _ hI) ((Calm.release I t).handling.trans hn)
    | enter es =>
      cases es with
      | nil => exact gone (J := I) hI hn
      | cons x xs =>
        dsimp only at gone
        unfold Eng.enterEntry at gone
        cases hc : e.insts[e.cur]? with
        | none => rw [hc] at gone; exact gone (J := I) hI hn
        | some K =>
          have hz := hcur hc
          rw [hz] at hc gone
          rw [hc] at gone
          rw [hI0] at hc
          cases hc
          dsimp only at gone
          have m1 := mod1 e I (fun _ => (I.enterTask x.task).1) hI
          have hh1 := (Calm.enterTask I x.task).handling.trans hn
          split at gone
          · exact gone m1 hh1
          · split at gone
            · exact gone m1 hh1
            · exact gone m1 hh1
          · unfold Eng.taskSkipped at gone
            have m2 : (e.modI 0 (fun _ => (I.enterTask x.task).1)).insts[0]? = some (I.enterTask x.task).1 := by rw [m1]; rfl
            rw [m2] at gone
            dsimp only at gone
            split at gone
            · exact gone m1 hh1
            · rename_i ob hob
              have m3 := mod1 _ _ (fun _ => ((I.enterTask x.task).1.skipTask (I.enterTask x.task).2.1 ob.task).1) m1
              have hh2 := (Calm.skipTask (I.enterTask x.task).1 (I.enterTask x.task).2.1 ob.task).handling.trans hh1
              unfold Eng.finishTask at gone
              have m4 : ((e.modI 0 (fun _ => (I.enterTask x.task).1)).modI 0 (fun _ => ((I.enterTask x.task).1.skipTask (I.enterTask x.task).2.1 ob.task).1)).insts[0]? =
                some ((I.enterTask x.task).1.skipTask (I.enterTask x.task).2.1 ob.task).1 := by rw [m3]; rfl
              rw [m4] at gone
              dsimp only at gone
              split at gone
              · refine gone (J := Inst.setFlowStatus _ .completed) ?_ hh2
                dsimp only
                unfold Eng.complete
                rw [m4]
                exact mod1 _ _ _ m3
              · exact gone m3 hh2

end Lift

end Flow
