import Verif.Proofs.GraphTree

/-
How often the end of a flow is reported.
-/

namespace Flow.GraphM
open Spec Eng

variable {env : Env} {g : Graph} {e : Eng} {I : Inst} {G : GS}

/-- The number of end tasks that are finished. -/
def endsDone (I : Inst) : Nat := (endTasks I.defn.main).countP fun t => decide (Fin (tstat I t.id))

/-- The end was reported at most once for every finished end task. -/
def EndsOK (I : Inst) : Prop := endings I ≤ endsDone I

theorem EndsOK.bound (h : EndsOK I) : endings I ≤ (endTasks I.defn.main).length := Nat.le_trans h List.countP_le_length

theorem mem_endTasks {td : TaskDef} (h : td ∈ g.tasks) (hl : g.toLinks td.id = []) : td ∈ endTasks g := by
  refine List.mem_filter.2 ⟨h, List.all_eq_true.2 fun l hm => decide_eq_true fun hc => ?_⟩
  have : l ∈ g.toLinks td.id := List.mem_filter.2 ⟨hm, decide_eq_true hc⟩
  rw [hl] at this; cases this

theorem endsDone_like {I I' : Inst} (h : Like I I') : endsDone I' = endsDone I := by
  unfold endsDone
  rw [show I'.defn = I.defn by rw [h.eq]]
  congr 1
  funext t
  rw [tstat_like h]

/-- A step of the instance itself. -/
theorem EndsOK.own {I' : Inst} {G' : GS} {sg sg' : TaskId → Prop} {F F' : TaskStatus → LinkDef → LinkStatus → Prop} {W W' : TaskId → Nat → Prop}
    {cnt cnt' : Nat → Nat} (h : EndsOK I) (hI : IS g sg F W I cnt G) (hI' : IS g sg' F' W' I' cnt' G') (hm : ∀ t, Fin (G.st t) → Fin (G'.st t))
    {td : TaskDef} (htd : td ∈ g.tasks) {s : TaskStatus} (hn : Fin s → ¬ Fin (G.st td.id) ∧ Fin (G'.st td.id))
    (he : endings I' ≤ endings I + reports g td.id s) : EndsOK I' := by
  have e1 : endsDone I = (endTasks g).countP fun t => decide (Fin (G.st t.id)) := by
    unfold endsDone; rw [hI.defn]; congr 1; funext t; rw [hI.tstat]
  have e2 : endsDone I' = (endTasks g).countP fun t => decide (Fin (G'.st t.id)) := by
    unfold endsDone; rw [hI'.defn]; congr 1; funext t; rw [hI'.tstat]
  have hle : ∀ x ∈ endTasks g, decide (Fin (G.st x.id)) = true → decide (Fin (G'.st x.id)) = true := fun x _ hx => decide_eq_true (hm _ (of_decide_eq_true hx))
  unfold EndsOK at h ⊢
  rw [e2]; rw [e1] at h
  unfold reports at he
  split at he
  · rename_i hx
    have := countP_lt hle (mem_endTasks htd hx.2) (decide_eq_true (hn hx.1).2) (decide_eq_false (hn hx.1).1)
    omega
  · have := List.countP_mono_left hle
    omega

theorem EndsOK.idle {I' : Inst} {G' : GS} {sg sg' : TaskId → Prop} {F F' : TaskStatus → LinkDef → LinkStatus → Prop} {W W' : TaskId → Nat → Prop}
    {cnt cnt' : Nat → Nat} (h : EndsOK I) (hI : IS g sg F W I cnt G) (hI' : IS g sg' F' W' I' cnt' G') (hm : ∀ t, Fin (G.st t) → Fin (G'.st t))
    (he : endings I' ≤ endings I) : EndsOK I' := by
  have e1 : endsDone I = (endTasks g).countP fun t => decide (Fin (G.st t.id)) := by
    unfold endsDone; rw [hI.defn]; congr 1; funext t; rw [hI.tstat]
  have e2 : endsDone I' = (endTasks g).countP fun t => decide (Fin (G'.st t.id)) := by
    unfold endsDone; rw [hI'.defn]; congr 1; funext t; rw [hI'.tstat]
  have hle : ∀ x ∈ endTasks g, decide (Fin (G.st x.id)) = true → decide (Fin (G'.st x.id)) = true := fun x _ hx => decide_eq_true (hm _ (of_decide_eq_true hx))
  unfold EndsOK at h ⊢
  rw [e2]; rw [e1] at h
  have := List.countP_mono_left hle
  omega

/-- Only work items create instances. -/
theorem new_next (hset : SettingsOk env) (ok : EngOK e) {j : Nat} {K : Inst} (hj : e.insts.length ≤ j) (hK : (e.step env).insts[j]? = some K) :
    ∃ i o s, NewInst env i o s K := by
  have hl : 0 < e.insts.length := by rw [← ok.ctr]; omega
  have hlt := (List.getElem?_eq_some_iff.1 hK).1
  cases hx : Spec.next env e with
  | none =>
    exfalso
    by_cases hst : e.stack = []
    · rw [step_idle hst hx hl] at hlt; exact Nat.not_lt.2 hj hlt
    · rw [(EnterFrame.step hst).len] at hlt; exact Nat.not_lt.2 hj hlt
  | some w => exact ⟨_, _, _, step_newInst hset ok hx hj hK⟩

/-- One step. -/
theorem ends_step (hset : SettingsOk env) (ok : EngOK e) (hlin : LInv env e) (hcov : ∀ I ∈ e.insts, Covered I.defn.main) (hsm : Smooth e)
    (hu : ∀ J ∈ (e.step env).insts, Undisturbed J) (h : ∀ I ∈ e.insts, EndsOK I) :
    ∀ I ∈ (e.step env).insts, EndsOK I := by
  have hl : 0 < e.insts.length := by rw [← ok.ctr]; omega
  obtain ⟨ok', hEE⟩ := Good.step (env := env) e ok
  have hloc : ∀ (i : Nat) (I : Inst), e.insts[i]? = some I → Loc env e i I := fun i I hI =>
    hlin i I hI (hsm.1 I (List.mem_of_getElem? hI)).1 (hsm.1 I (List.mem_of_getElem? hI)).2
      (Covered.scope (hcov I (List.mem_of_getElem? hI))) (Smooth.served ok hsm i)
  have heh : ∀ J ∈ (e.step env).insts, .ehStart ∉ J.trace := fun J hJ hm => by
    obtain ⟨j, hj⟩ := List.getElem?_of_mem hJ
    have := (ok'.ok j J hj).eh hm
    rw [(hu J hJ).1] at this; cases this
  intro I' hm'
  obtain ⟨i, hI'⟩ := List.getElem?_of_mem hm'
  by_cases hi : i < e.insts.length
  · obtain ⟨I, hI⟩ : ∃ I, e.insts[i]? = some I := ⟨_, List.getElem?_eq_getElem hi⟩
    have hm := List.mem_of_getElem? hI
    have hu' := hu I' hm'
    have hc := hcov I hm
    obtain ⟨G, hIS, hfr⟩ := hloc i I hI
    by_cases hother : (e.stack = [] ∨ e.cur ≠ i) ∧ ∀ w, Spec.next env e = some w → w.inst ≠ i
    · obtain ⟨b, h3, h4⟩ := (Sees.step (env := env) (EngOK.top ok) hi hother.1 hother.2).inst (fun _ => heh) I hI
      rw [hI'] at h3; cases h3
      have h5 : endings I' = endings I := by unfold endings; rw [h4.eq]
      have := h I hm
      unfold EndsOK at this ⊢
      rw [h5, endsDone_like h4]; exact this
    · cases hn : Spec.next env e with
      | none =>
        have hst : e.stack ≠ [] := fun hc => hother ⟨Or.inl hc, fun w hw => by rw [hn] at hw; cases hw⟩
        have hci : e.cur = i := Decidable.byContradiction fun hc => hother ⟨Or.inr hc, fun w hw => by rw [hn] at hw; cases hw⟩
        rw [if_pos hci] at hfr
        obtain ⟨G', a1, a2, a3, a4, a5⟩ := own_inner hset hIS hc.wf hc.order hI hci hfr hst (hsm.1 I hm).2 (host_ne ok hI) I' hI' hu'.1 hu'.2
        rcases a5 with ⟨_, b1⟩ | ⟨td, b1, b2, b3, _, b4⟩
        · exact (h I hm).idle hIS a1 a3.2 (b1 I' hI')
        · exact (h I hm).own hIS a1 a3.2 b1 (fun _ => ⟨fun hc => b2 hc.settled, b3⟩) (b4 I' hI')
      | some w =>
        have hst := (next_some hn).1
        have hwi : w.inst = i := by
          apply Decidable.byContradiction
          intro hc
          exact hother ⟨Or.inl hst, fun v hv => by rw [hn] at hv; cases hv; exact hc⟩
        subst hwi
        have hstk : G.stk = [] := by
          rw [hst, ite_self] at hfr
          exact hfr.nil_iff
        obtain ⟨t, ht, hlive, hwt, hone, hpop⟩ := own_next hn hIS
        have hpost := own_exec (e := afterPop env e w) hIS hc.wf hc.order (Covered.scope hc).sub hstk ht hlive hwt waits_two hone hI hst hpop (hsm.1 I hm).1
          (host_ne ok hI)
        have hI'' := hI'
        rw [step_next hn] at hI''
        obtain ⟨G', a1, _, a3⟩ := hpost I' hI'' hu'.1 hu'.2
        rw [← step_next hn] at a1 a3
        obtain ⟨td, htd, hid, _⟩ := sub_of hIS hI ht hlive
        rcases a3 with ⟨s, b1, b2, _, _, _, b3⟩ | ⟨b1, _, _, _, _, b3⟩
        · refine (h I hm).own hIS a1 (fun x hx => ?_) htd (s := s) (fun hf => ?_) (by rw [hid]; exact b3 I' hI')
          · rw [b2]
            by_cases hxt : x = t
            · subst hxt; exact absurd hx hlive.not_fin
            · rw [upd_ne _ _ hxt]; exact hx
          · rw [hid, b2, upd_self]; exact ⟨hlive.not_fin, hf⟩
        · exact (h I hm).idle hIS a1 (fun x hx => by rw [b1]; exact hx) (b3 I' hI')
  · obtain ⟨_, _, _, hni⟩ := new_next hset ok (Nat.le_of_not_lt hi) hI'
    show endings I' ≤ _
    rw [hni.ends]; exact Nat.zero_le _

/-- The definitions of the instances. -/
theorem defn_run (hset : SettingsOk env) (id uri : String) (d : Def) (ins : AMap String Val) (n : Nat) :
    ∀ (i : Nat) (I : Inst), (Eng.run env (Eng.init env id uri d ins) n).insts[i]? = some I → (i = 0 ∧ I.defn = d) ∨ ∃ u, env.defs u = .ok (some I.defn) := by
  induction n with
  | zero =>
    intro i I hI
    have hl : (Eng.init env id uri d ins).insts.length = 1 := (StartFrame.startInstance (env := env) 0 (Eng.new id uri d) ins).len
    have hlt : i < (Eng.init env id uri d ins).insts.length := (List.getElem?_eq_some_iff.1 hI).1
    have h0 : i = 0 := by omega
    subst h0
    exact Or.inl ⟨rfl, root_defn (n := 0) hI⟩
  | succ n ih =>
    intro i I' hI'
    have ok := engOK_run (env := env) id uri d ins n
    have hI' : (Eng.step env (Eng.run env (Eng.init env id uri d ins) n)).insts[i]? = some I' := hI'
    by_cases hi : i < (Eng.run env (Eng.init env id uri d ins) n).insts.length
    · obtain ⟨I, hI⟩ : ∃ I, (Eng.run env (Eng.init env id uri d ins) n).insts[i]? = some I := ⟨_, List.getElem?_eq_getElem hi⟩
      obtain ⟨I2, h1, h2⟩ := (Good.step (env := env) _ ok).2 i I hI
      rw [hI'] at h1; cases h1
      rw [h2.defn]; exact ih i I hI
    · obtain ⟨_, _, _, hni⟩ := new_next hset ok (Nat.le_of_not_lt hi) hI'
      obtain ⟨u, _, hu⟩ := hni.defn
      exact Or.inr ⟨u, hu⟩

/-- The state after `n` steps. -/
theorem ends_run (hset : SettingsOk env) {d : Def} (hd : Covered d.main) (hdefs : ∀ u f, env.defs u = .ok (some f) → Covered f.main ∧ (endTasks f.main).length ≤ 1)
    (id uri : String) (ins : AMap String Val) (n : Nat) (hu : ∀ J ∈ (Eng.run env (Eng.init env id uri d ins) n).insts, Undisturbed J) :
    ∀ I ∈ (Eng.run env (Eng.init env id uri d ins) n).insts, EndsOK I := by
  induction n with
  | zero =>
    intro I hI
    have hl : (Eng.init env id uri d ins).insts.length = 1 := (StartFrame.startInstance (env := env) 0 (Eng.new id uri d) ins).len
    obtain ⟨i, hi⟩ := List.getElem?_of_mem hI
    have hi : (Eng.init env id uri d ins).insts[i]? = some I := hi
    have hlt := (List.getElem?_eq_some_iff.1 hi).1
    have h0 : i = 0 := by omega
    subst h0
    obtain ⟨K, h2, h3⟩ := startInstance_calm (env := env) (Eng.new id uri d) 0 ins (I := (Eng.new id uri d).insts[0]) rfl
    have h2 : (Eng.init env id uri d ins).insts[0]? = some K := h2
    rw [hi] at h2; cases h2
    show endings I ≤ _
    rw [endings_flows h3.flows]
    exact Nat.zero_le _
  | succ n ih =>
    have ok := engOK_run (env := env) id uri d ins n
    have hdef := defn_run hset id uri d ins n
    have hlin := LInv.run hset id uri d ins n
    show ∀ I ∈ (Eng.step env (Eng.run env (Eng.init env id uri d ins) n)).insts, EndsOK I
    have hu : ∀ J ∈ (Eng.step env (Eng.run env (Eng.init env id uri d ins) n)).insts, Undisturbed J := hu
    generalize Eng.run env (Eng.init env id uri d ins) n = e at *
    have hu0 := undisturbed_back (Good.step (env := env) e ok).2 hu
    have h := ih hu0
    refine ends_step hset ok hlin (fun I hI => ?_) ⟨hu0, fun i J hJ o ho => ?_⟩ hu h
    · obtain ⟨i, hi⟩ := List.getElem?_of_mem hI
      rcases hdef i I hi with ⟨_, h1⟩ | ⟨u, h1⟩
      · rw [h1]; exact hd
      · exact (hdefs u _ h1).1
    · obtain ⟨j, hj⟩ := List.getElem?_of_mem hJ
      rcases hdef j J hj with ⟨h0, _⟩ | ⟨u, h1⟩
      · subst h0
        rw [ok.host0 J hj] at ho; cases ho
      · exact Nat.le_trans (h J hJ).bound (hdefs u _ h1).2

/-- If the called flows have one end task each, then nothing more is needed. -/
theorem smooth_run (hset : SettingsOk env) {d : Def} (hd : Covered d.main) (hdefs : ∀ u f, env.defs u = .ok (some f) → Covered f.main ∧ (endTasks f.main).length ≤ 1)
    (id uri : String) (ins : AMap String Val) (n : Nat) (hu : ∀ J ∈ (Eng.run env (Eng.init env id uri d ins) n).insts, Undisturbed J) :
    Smooth (Eng.run env (Eng.init env id uri d ins) n) := by
  refine ⟨hu, fun i J hJ o ho => ?_⟩
  obtain ⟨j, hj⟩ := List.getElem?_of_mem hJ
  rcases defn_run hset id uri d ins n j J hj with ⟨h0, _⟩ | ⟨u, h1⟩
  · subst h0
    rw [(engOK_run (env := env) id uri d ins n).host0 J hj] at ho; cases ho
  · exact Nat.le_trans (ends_run hset hd hdefs id uri ins n hu J hJ).bound (hdefs u _ h1).2

end Flow.GraphM
