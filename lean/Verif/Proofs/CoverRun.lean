import Verif.Proofs.Cover

/-
Coverage entries of whole runs.
-/

namespace Flow

open Spec

variable {β : Type} {p : Ev → Option β} {q : Nat → Cov → Option β} {env : Env}

namespace Eng

/-- The entries of a step that evaluates a task. -/
theorem covStep_next {e : Eng} {w : WorkItem} (hn : next env e = some w) {I : Inst} (hI : e.insts[w.inst]? = some I) {ob : Obj}
    (hob : I.objs[w.obj]? = some ob) {td : TaskDef} (htd : I.defn.task? ob.task = some td) {e' : Eng} {r : EvalOut}
    (ho : outcome env (afterPop env e w) w.inst w.obj = some (e', r)) :
    covStep env e = covSubs (afterPop env e w) e' w.inst I.defn.name td.name ++ covResult env e' w.inst ob.task r := by
  obtain ⟨h1, h2, h3⟩ := next_some hn
  have hob' : (afterPop env e w).obj? w.inst w.obj = some ob := (obj?_eq (e := afterPop env e w) hI).trans hob
  have htd' : (afterPop env e w).taskDef? w.inst ob.task = some td := by
    unfold taskDef?; rw [show (afterPop env e w).insts[w.inst]? = some I from hI]; exact htd
  unfold Spec.outcome at ho
  rw [hob'] at ho
  dsimp only at ho
  rw [htd'] at ho
  dsimp only at ho
  unfold covStep
  rw [h1]
  dsimp only
  unfold covDoStep
  unfold Spec.flowStatus at h2
  cases hI0 : e.insts[0]? with
  | none => rw [hI0] at h2; cases h2
  | some I0 =>
    rw [hI0] at h2
    simp only [Option.map_some, Option.some.injEq] at h2
    dsimp only
    rw [if_pos h2, h3]
    dsimp only
    change covExec env (afterPop env e w) w.inst w.obj = _
    unfold covExec
    rw [show (afterPop env e w).insts[w.inst]? = some I from hI]
    dsimp only
    rw [hob]
    dsimp only
    rw [htd]
    dsimp only
    split at ho
    · rename_i hs
      rw [hs]
      dsimp only
      simp only [Option.some.injEq] at ho
      unfold covEval
      rw [ho]
    · split at ho
      · cases ho
      · rename_i h4 h5
        simp only [Option.some.injEq] at ho
        cases hs : ob.status <;> first | exact absurd hs h4 | exact absurd (Or.inl hs) h5 | exact absurd (Or.inr hs) h5 | skip
        all_goals dsimp only; unfold covEval; rw [ho]

/-- A step that evaluates nothing adds no entries. -/
theorem covStep_none {e : Eng} {w : WorkItem} (hn : next env e = some w)
    (ho : outcome env (afterPop env e w) w.inst w.obj = none) : covStep env e = [] := by
  obtain ⟨h1, h2, h3⟩ := next_some hn
  unfold covStep
  rw [h1]
  dsimp only
  unfold covDoStep
  split
  · rfl
  · split
    · rw [h3]
      dsimp only
      change covExec env (afterPop env e w) w.inst w.obj = _
      unfold covExec
      split
      · rfl
      · rename_i I hI
        split
        · rfl
        · rename_i ob hob
          have hob' : (afterPop env e w).obj? w.inst w.obj = some ob := (obj?_eq (e := afterPop env e w) hI).trans hob
          split
          · rfl
          · rename_i td htd
            have htd' : (afterPop env e w).taskDef? w.inst ob.task = some td := by
              unfold taskDef?; rw [hI]; exact htd
            unfold Spec.outcome at ho
            rw [hob'] at ho
            dsimp only at ho
            rw [htd'] at ho
            dsimp only at ho
            split at ho
            · cases ho
            · split at ho
              · rename_i h4 h5
                rcases h5 with h5 | h5 <;> rw [h5]
              · cases ho
    · rfl

theorem covStep_idle {e : Eng} (hn : next env e = none) : covStep env e = [] := by
  unfold covStep
  split
  · rename_i hs
    unfold covDoStep
    split
    · rfl
    · rename_i I hI
      split
      · rename_i ha
        unfold Spec.next Spec.flowStatus at hn
        rw [hI, if_pos ⟨hs, by simp [ha]⟩] at hn
        rw [hn]
      · rfl
  · rfl

/-- An evaluation adds nothing that is observed, except for the statuses that loops set. -/
theorem outcome_silent (hp : Heeds p) {e : Eng} {i o : Nat} {I : Inst} (hI : e.insts[i]? = some I) {e' : Eng} {r : EvalOut}
    (h : outcome env e i o = some (e', r)) : Silent p (some i) (some i) e e' := by
  obtain ⟨e1, h1, h2⟩ := outcome_evals h
  have h3 := Silent.evals hp h1
  have hl : i < e.insts.length := (List.getElem?_eq_some_iff.mp hI).1
  rcases h2 with rfl | ⟨st, rfl⟩
  · exact h3.weaken
  · refine Silent.trans h3.weaken (.modX _ fun J _ => setTaskStatus_const J o st) ?_
    intro j hj
    cases hj
    exact hl

theorem outcome_hush (hp : Heeds p) {e : Eng} {i o : Nat} {I : Inst} {e' : Eng} {r : EvalOut} (h : outcome env e i o = some (e', r))
    (hI : e.insts[i]? = some I) (hk : (∀ o t s, p (.taskStatus o t s) = none) ∨ NoLoops I.defn) : Silent p none (some i) e e' := by
  rcases hk with hk | hk
  · obtain ⟨e1, h1, h2⟩ := outcome_evals h
    have h3 := Silent.evals hp h1
    rcases h2 with rfl | ⟨st, rfl⟩
    · exact h3
    · exact h3.trans' (.mod _ fun J _ => Hush.setTaskStatus J o st fun t => hk o t st)
  · unfold Spec.outcome at h
    cases ho : e.obj? i o with
    | none => rw [ho] at h; cases h
    | some ob =>
      rw [ho] at h
      dsimp only at h
      cases htd : e.taskDef? i ob.task with
      | none => rw [htd] at h; cases h
      | some td =>
        rw [htd] at h
        have hb : td.kind = .basic := by
          unfold taskDef? at htd
          rw [hI] at htd
          exact hk _ td htd
        dsimp only at h
        unfold postKind evalKind at h
        rw [hb] at h
        dsimp only at h
        have key : ∀ x : Eng × EvalOut, (x = e.postBasic env i o ∨ x = e.evalBasic env i o) → Silent p none (some i) e x.1 := by
          intro x hx
          rcases hx with rfl | rfl
          · have h4 := Evals.postOnce (env := env) (i := i) (o := o) (s := e.subOf i o) e
            unfold postBasic
            split
            · rename_i hx; rw [hx] at h4; exact Silent.evals hp h4
            · rename_i e1 err hx
              rw [hx] at h4
              split
              · have h5 := h4.trans (Evals.getRetry e1)
                split
                · rename_i hy; rw [hy] at h5; exact Silent.evals hp h5
                · rename_i e2 c hy
                  rw [hy] at h5
                  split
                  · have h6 := Evals.retryFrom (env := env) ho (c.toNat - 1) h5
                    split <;> rename_i hz <;> rw [hz] at h6 <;> exact Silent.evals hp h6
                  · exact Silent.evals hp h5
              · exact Silent.evals hp h4
          · have h4 := Evals.evalActivity (env := env) ho (.refl e)
            unfold evalBasic
            split <;> rename_i hx <;> rw [hx] at h4 <;> exact Silent.evals hp h4
        split at h
        · simp only [Option.some.injEq] at h
          have := key _ (.inl rfl)
          rw [h] at this
          exact this
        · split at h
          · cases h
          · simp only [Option.some.injEq] at h
            have := key _ (.inr rfl)
            rw [h] at this
            exact this

theorem outcome_ne_fail {e : Eng} {i o : Nat} {e' : Eng} {r : EvalOut} (h : outcome env e i o = some (e', r)) : r ≠ .res .fail := by
  unfold Spec.outcome at h
  cases ho : e.obj? i o with
  | none => rw [ho] at h; cases h
  | some ob =>
    rw [ho] at h
    dsimp only at h
    cases htd : e.taskDef? i ob.task with
    | none => rw [htd] at h; cases h
    | some td =>
      rw [htd] at h
      dsimp only at h
      split at h
      · obtain ⟨e1, hev, heff⟩ := postKind_spec (env := env) ho td
        simp only [Option.some.injEq] at h
        rw [h] at heff
        rintro rfl
        exact heff
      · split at h
        · cases h
        · obtain ⟨e1, hev, heff⟩ := evalKind_spec (env := env) ho td
          simp only [Option.some.injEq] at h
          rw [h] at heff
          rintro rfl
          exact heff

/-- What a step does to the observations and to the entries. -/
theorem step_reads (hq : Reads p q) {e : Eng} (hr : Reachable env e) (i : Nat)
    (hk : (∀ o t s, p (.taskStatus o t s) = none) ∨ ∀ I : Inst, e.insts[i]? = some I → NoLoops I.defn) {I' : Inst}
    (hI' : (e.step env).insts[i]? = some I') :
    (obs p I').reverse = (((e.insts[i]?).map (obs p)).getD []).reverse ++ (covStep env e).filterMap (q i) := by
  have hp := hq.heeds
  have quiet : ∀ {x k : Option Nat}, Silent p x k e (e.step env) → x ≠ some i → (covStep env e).filterMap (q i) = [] →
      (obs p I').reverse = (((e.insts[i]?).map (obs p)).getD []).reverse ++ (covStep env e).filterMap (q i) := by
    intro x k hs hx hc
    rw [hc, List.append_nil]
    cases hI : e.insts[i]? with
    | none =>
      obtain ⟨h1, _⟩ := hs.fresh i I' (List.getElem?_eq_none_iff.mp hI) hI'
      rw [h1]; rfl
    | some I =>
      obtain ⟨I2, h1, _, _, h4⟩ := hs.old i I hI
      rw [hI'] at h1
      cases h1
      rw [h4 hx]; rfl
  cases hn : next env e with
  | none =>
    have hc := covStep_idle hn
    by_cases hst : e.stack = []
    · rw [step_idle hst hn (by have := (engOK_reachable hr).ctr; omega)] at hI'
      rw [hc]
      rw [show ({ e with stepID := e.stepID + 1 } : Eng).insts[i]? = e.insts[i]? from rfl] at hI'
      rw [hI']; simp
    · exact quiet (Silent.ctlStep hp env hst) (nomatch ·) (by rw [hc]; rfl)
  | some w =>
    cases ho : outcome env (afterPop env e w) w.inst w.obj with
    | none =>
      have hstep := step_next hn
      rw [exec_none ho] at hstep
      refine quiet (x := none) (k := none) ?_ (nomatch ·) (by rw [covStep_none hn ho]; rfl)
      rw [hstep]
      exact .ctl rfl
    | some x =>
      obtain ⟨e', r⟩ := x
      obtain ⟨ob, hob⟩ : ∃ ob, (afterPop env e w).obj? w.inst w.obj = some ob := by
        unfold Spec.outcome at ho
        cases h : (afterPop env e w).obj? w.inst w.obj with
        | none => rw [h] at ho; cases ho
        | some ob => exact ⟨ob, rfl⟩
      obtain ⟨td, htd, hex⟩ := exec_outcome hob ho
      obtain ⟨J, hJ, hJo⟩ := obj?_some hob
      have hJ0 : e.insts[w.inst]? = some J := hJ
      have htd0 : J.defn.task? ob.task = some td := by unfold taskDef? at htd; rw [hJ] at htd; exact htd
      have hcov := covStep_next hn hJ0 hJo htd0 ho
      have hstep := (step_next hn).trans hex
      obtain ⟨J', hJ', _, _, _, _, _, _, _, _, hobjs⟩ := outcome_inst ho hJ
      obtain ⟨ob', hob', htask⟩ := hobjs w.obj ob hJo
      obtain ⟨I1, hs2, hd1, hh1, hob1⟩ := handle_reads (env := env) hq hJ' hob' htask td.name (outcome_ne_fail ho)
      rw [← hstep] at hs2
      have hpop : Silent p (some w.inst) (some w.inst) e (afterPop env e w) := .ctl rfl
      have hl : w.inst < e.insts.length := (List.getElem?_eq_some_iff.mp hJ0).1
      by_cases hij : i = w.inst
      · subst hij
        have hk' : (∀ o t s, p (.taskStatus o t s) = none) ∨ NoLoops J.defn := hk.imp (fun h => h) fun h => h J hJ0
        have hs1 := outcome_hush hp ho hJ hk'
        obtain ⟨J2, a1, a2, a3, a4⟩ := hs1.old _ J hJ
        rw [hJ'] at a1
        cases a1
        obtain ⟨I2, b1, b2, b3, b4⟩ := hs2.old _ I1 (modI_self hJ' _)
        rw [hI'] at b1
        cases b1
        rw [b4 (nomatch ·), hob1, a4 (nomatch ·), hJ0, hcov, List.filterMap_append, covSubs_none hq, List.nil_append]
        rfl
      · have hc : (covStep env e).filterMap (q i) = [] := by
          rw [hcov, List.filterMap_append, covSubs_none hq, covResult_other hq _ hij]; rfl
        have hs1 := outcome_silent hp hJ ho
        have h4 : Silent p (some w.inst) (some w.inst) e' (e'.modI w.inst (fun _ => I1)) :=
          .modX _ fun K hK => by rw [hJ'] at hK; cases hK; exact ⟨hd1, hh1⟩
        have h5 : Silent p (some w.inst) (some w.inst) (e'.modI w.inst (fun _ => I1)) (e.step env) :=
          ⟨hs2.len, hs2.weaken.old, fun j K hj hK => by
            obtain ⟨_, _, _, h, _⟩ := hs2.fresh j K hj hK; cases h⟩
        have hx : ∀ j, some w.inst = some j → j < e.insts.length := by intro j hj; cases hj; exact hl
        refine quiet (((hpop.trans hs1 hx).trans h4 hx).trans h5 hx) ?_ hc
        intro h
        cases h
        exact hij rfl

end Eng

theorem Eng.covStep_absent (hq : Reads p q) {e : Eng} {i : Nat} (hi : e.insts[i]? = none) : (covStep env e).filterMap (q i) = [] := by
  cases hn : next env e with
  | none => rw [covStep_idle hn]; rfl
  | some w =>
    cases ho : outcome env (afterPop env e w) w.inst w.obj with
    | none => rw [covStep_none hn ho]; rfl
    | some x =>
      obtain ⟨e', r⟩ := x
      obtain ⟨ob, hob⟩ : ∃ ob, (afterPop env e w).obj? w.inst w.obj = some ob := by
        unfold Spec.outcome at ho
        cases h : (afterPop env e w).obj? w.inst w.obj with
        | none => rw [h] at ho; cases ho
        | some ob => exact ⟨ob, rfl⟩
      obtain ⟨td, htd, hex⟩ := exec_outcome hob ho
      obtain ⟨J, hJ, hJo⟩ := obj?_some hob
      have hJ0 : e.insts[w.inst]? = some J := hJ
      have htd0 : J.defn.task? ob.task = some td := by unfold taskDef? at htd; rw [hJ] at htd; exact htd
      have hij : i ≠ w.inst := by rintro rfl; rw [hi] at hJ0; cases hJ0
      rw [covStep_next hn hJ0 hJo htd0 ho, List.filterMap_append, covSubs_none hq, covResult_other hq _ hij]; rfl

theorem CovRun.run_eng (env : Env) (s : CovRun) (n : Nat) : (CovRun.run env s n).eng = Eng.run env s.eng n := by
  induction n with
  | zero => rfl
  | succ n ih => exact congrArg (Eng.step env) ih

theorem obs_init (hp : Heeds p) (env : Env) (id uri : String) (d : Def) (ins : AMap String Val) {i : Nat} {I : Inst}
    (h : (Eng.init env id uri d ins).insts[i]? = some I) : obs p I = [] := by
  have h1 : Silent p none none (Eng.new id uri d) (Eng.init env id uri d ins) := by
    unfold Eng.init Eng.startInstance
    split
    · exact .refl _
    · rename_i I hI
      dsimp only
      refine (Silent.mod _ fun J hJ => ?_).trans' (Silent.enterStart hp env _ _ _)
      rw [hI] at hJ
      cases hJ
      exact Hush.ev (hp.flow _) rfl rfl rfl
  by_cases hi : i = 0
  · subst hi
    obtain ⟨I2, a, _, _, b⟩ := h1.old 0 { defn := d, uri := uri } rfl
    rw [h] at a
    cases a
    rw [b (nomatch ·)]; rfl
  · exact (h1.fresh i I (by have : (Eng.new id uri d).insts.length = 1 := rfl; omega) h).1

/-- The entries about a flow instance are what its trace tells. -/
theorem recorded_reads (hq : Reads p q) (id uri : String) (d : Def) (ins : AMap String Val) (i : Nat) : ∀ (n : Nat),
    ((∀ o t s, p (.taskStatus o t s) = none) ∨ ∀ I : Inst, (CovRun.run env (CovRun.init env id uri d ins) n).eng.insts[i]? = some I → NoLoops I.defn) →
    (CovRun.run env (CovRun.init env id uri d ins) n).cov.filterMap (q i) =
      ((((CovRun.run env (CovRun.init env id uri d ins) n).eng.insts[i]?).map (obs p)).getD []).reverse
  | 0, _ => by
    change [] = _
    cases h : (CovRun.run env (CovRun.init env id uri d ins) 0).eng.insts[i]? with
    | none => rfl
    | some I => rw [Option.map_some, Option.getD_some, obs_init hq.heeds env id uri d ins h]; rfl
  | n + 1, hk => by
    have hr : Reachable env (CovRun.run env (CovRun.init env id uri d ins) n).eng := ⟨id, uri, d, ins, n, by rw [CovRun.run_eng]; rfl⟩
    have hext := (Eng.Good.step (env := env) _ (Eng.engOK_reachable hr)).2
    have hk' : (∀ o t s, p (.taskStatus o t s) = none) ∨
        ∀ I : Inst, (CovRun.run env (CovRun.init env id uri d ins) n).eng.insts[i]? = some I → NoLoops I.defn := by
      refine hk.imp (fun h => h) fun h I hI => ?_
      obtain ⟨I', h1, h2⟩ := hext i I hI
      rw [← h2.defn]
      exact h I' h1
    have ih := recorded_reads hq id uri d ins i n hk'
    change ((CovRun.run env (CovRun.init env id uri d ins) n).cov ++ _).filterMap (q i) = _
    rw [List.filterMap_append, ih]
    cases hI' : (CovRun.run env (CovRun.init env id uri d ins) (n + 1)).eng.insts[i]? with
    | none =>
      have h0 : (CovRun.run env (CovRun.init env id uri d ins) n).eng.insts[i]? = none := by
        cases h : (CovRun.run env (CovRun.init env id uri d ins) n).eng.insts[i]? with
        | none => rfl
        | some I =>
          obtain ⟨I', h1, _⟩ := hext i I h
          exact nomatch h1.symm.trans hI'
      rw [h0, Eng.covStep_absent hq h0]
      rfl
    | some I' => exact (Eng.step_reads hq hr i hk' hI').symm

/-! ### What the entries are about -/

/-- A step that evaluates a task. -/
theorem Eng.evalStep {e : Eng} {w : WorkItem} (hn : next env e = some w) {e' : Eng} {r : Eng.EvalOut}
    (ho : outcome env (afterPop env e w) w.inst w.obj = some (e', r)) :
    ∃ (J : Inst) (ob : Obj) (td : TaskDef) (J' : Inst) (ob' : Obj), e.insts[w.inst]? = some J ∧ J.objs[w.obj]? = some ob ∧
      covStep env e = covSubs (afterPop env e w) e' w.inst J.defn.name td.name ++ covResult env e' w.inst ob.task r ∧
      e.step env = handleResult env e' w.inst w.obj ob.task td.name r ∧
      e'.insts[w.inst]? = some J' ∧ J'.defn = J.defn ∧ J'.objs[w.obj]? = some ob' ∧ ob'.task = ob.task := by
  obtain ⟨ob, hob⟩ : ∃ ob, (afterPop env e w).obj? w.inst w.obj = some ob := by
    unfold Spec.outcome at ho
    cases h : (afterPop env e w).obj? w.inst w.obj with
    | none => rw [h] at ho; cases ho
    | some ob => exact ⟨ob, rfl⟩
  obtain ⟨td, htd, hex⟩ := exec_outcome hob ho
  obtain ⟨J, hJ, hJo⟩ := obj?_some hob
  have hJ0 : e.insts[w.inst]? = some J := hJ
  have htd0 : J.defn.task? ob.task = some td := by unfold taskDef? at htd; rw [hJ] at htd; exact htd
  obtain ⟨J', hJ', hd, _, _, _, _, _, _, _, hobjs⟩ := outcome_inst ho hJ
  obtain ⟨ob', hob', htask⟩ := hobjs w.obj ob hJo
  exact ⟨J, ob, td, J', ob', hJ0, hJo, covStep_next hn hJ0 hJo htd0 ho, (step_next hn).trans hex, hJ', hd, hob', htask⟩

/-- What a subflow entry tells about an instance. -/
def subInfo (J : Inst) : Option Nat × String := (J.host.map (·.1), J.defn.name)

theorem Silent.infos {x k : Option Nat} {e e' : Eng} (h : Silent p x k e e') :
    e'.insts.map subInfo = e.insts.map subInfo ++ (e'.insts.drop e.insts.length).map (fun J => (k, J.defn.name)) := by
  have h1 : e'.insts = e'.insts.take e.insts.length ++ e'.insts.drop e.insts.length := (List.take_append_drop _ _).symm
  have h2 : (e'.insts.take e.insts.length).map subInfo = e.insts.map subInfo := by
    apply List.ext_getElem?
    intro j
    rw [List.getElem?_map, List.getElem?_map, List.getElem?_take]
    by_cases hj : j < e.insts.length
    · rw [if_pos hj]
      obtain ⟨I', a, b, c, _⟩ := h.old j _ (List.getElem?_eq_getElem hj)
      rw [a, List.getElem?_eq_getElem hj]
      simp only [Option.map_some, subInfo, b, c]
    · rw [if_neg hj, List.getElem?_eq_none (by omega)]
  have h3 : (e'.insts.drop e.insts.length).map subInfo = (e'.insts.drop e.insts.length).map (fun J => (k, J.defn.name)) := by
    apply List.map_congr_left
    intro J hJ
    obtain ⟨m, hm⟩ := List.mem_iff_getElem?.mp hJ
    rw [List.getElem?_drop] at hm
    obtain ⟨_, i, o, hk, hh⟩ := h.fresh _ J (by omega) hm
    simp only [subInfo, hh, hk, Option.map_some]
  conv => lhs; rw [h1]
  rw [List.map_append, h2, h3]

theorem Silent.infos_none {x : Option Nat} {e e' : Eng} (h : Silent p x none e e') : e'.insts.map subInfo = e.insts.map subInfo := by
  rw [h.infos]
  have : e'.insts.drop e.insts.length = [] := by
    rw [List.drop_eq_nil_iff]
    refine Nat.le_of_not_lt fun hc => ?_
    obtain ⟨_, _, _, h, _⟩ := h.fresh _ _ (Nat.le_refl _) (List.getElem?_eq_getElem hc)
    cases h
  rw [this]
  simp

theorem covResult_subs (e : Eng) (i : Nat) (t : TaskRef) (r : Eng.EvalOut) : (Eng.covResult env e i t r).filterMap subOf = [] := by
  have h1 : ∀ (I : Inst) rows, (Eng.covLinks i I rows).filterMap subOf = [] := by
    intro I rows
    rw [List.filterMap_eq_nil_iff]
    intro a ha
    obtain ⟨r, _, rfl⟩ := List.mem_map.mp ha
    rfl
  have h2 : (Eng.covDone env e i t).filterMap subOf = [] := by
    unfold Eng.covDone
    split
    · rfl
    · rw [List.filterMap_append, h1]; rfl
  have h3 : (Eng.covError e i t).filterMap subOf = [] := by
    unfold Eng.covError
    split
    · rfl
    · rw [List.filterMap_cons]; exact h1 _ _
  unfold Eng.covResult
  split
  · exact h3
  · exact h2
  · exact h2
  · rfl

/-- A step starts the subflows that its entries tell. -/
theorem Eng.step_subs {e : Eng} (hr : Reachable env e) : (e.step env).insts.map subInfo = e.insts.map subInfo ++ (covStep env e).filterMap Spec.subOf := by
  cases hn : next env e with
  | none =>
    rw [covStep_idle hn, List.filterMap_nil, List.append_nil]
    by_cases hst : e.stack = []
    · rw [step_idle hst hn (by have := (engOK_reachable hr).ctr; omega)]
    · exact (Silent.ctlStep heeds_link env hst).infos_none
  | some w =>
    cases ho : outcome env (afterPop env e w) w.inst w.obj with
    | none =>
      rw [covStep_none hn ho, List.filterMap_nil, List.append_nil, step_next hn, exec_none ho]
      rfl
    | some x =>
      obtain ⟨e', r⟩ := x
      obtain ⟨J, ob, td, J', ob', hJ, hJo, hcov, hstep, hJ', hd, hob', htask⟩ := evalStep hn ho
      obtain ⟨I1, hs2, hd1, hh1, _⟩ := handle_reads (env := env) reads_link hJ' hob' htask td.name (outcome_ne_fail ho)
      rw [← hstep] at hs2
      have h4 : Silent linkFollowed (some w.inst) none e' (e'.modI w.inst (fun _ => I1)) :=
        .modX _ fun K hK => by rw [hJ'] at hK; cases hK; exact ⟨hd1, hh1⟩
      have h5 := (outcome_silent heeds_link (e := afterPop env e w) hJ ho).infos
      rw [hs2.infos_none, h4.infos_none, h5, hcov, List.filterMap_append, covResult_subs, List.append_nil]
      congr 1
      unfold covSubs
      rw [List.filterMap_map]
      generalize e'.insts.drop _ = l
      induction l with
      | nil => rfl
      | cons K l ih => rw [List.map_cons, List.filterMap_cons, ih]; rfl

theorem recorded_subs (id uri : String) (d : Def) (ins : AMap String Val) (n : Nat) :
    (CovRun.run env (CovRun.init env id uri d ins) n).cov.filterMap subOf =
      ((CovRun.run env (CovRun.init env id uri d ins) n).eng.insts.drop 1).map subInfo := by
  have key : ∀ n, (CovRun.run env (CovRun.init env id uri d ins) n).eng.insts.map subInfo =
      (none, d.name) :: (CovRun.run env (CovRun.init env id uri d ins) n).cov.filterMap subOf := by
    intro n
    induction n with
    | zero =>
      change (Eng.init env id uri d ins).insts.map subInfo = [(none, d.name)]
      have h1 : Silent linkFollowed none none (Eng.new id uri d) (Eng.init env id uri d ins) := by
        unfold Eng.init Eng.startInstance
        split
        · exact .refl _
        · rename_i I hI
          dsimp only
          refine (Silent.mod _ fun J hJ => ?_).trans' (Silent.enterStart heeds_link env _ _ _)
          rw [hI] at hJ
          cases hJ
          exact Hush.ev (heeds_link.flow _) rfl rfl rfl
      rw [h1.infos_none]
      rfl
    | succ n ih =>
      have hr : Reachable env (CovRun.run env (CovRun.init env id uri d ins) n).eng := ⟨id, uri, d, ins, n, by rw [CovRun.run_eng]; rfl⟩
      change ((CovRun.run env (CovRun.init env id uri d ins) n).eng.step env).insts.map subInfo =
        _ :: ((CovRun.run env (CovRun.init env id uri d ins) n).cov ++ _).filterMap subOf
      rw [Eng.step_subs hr, ih, List.filterMap_append]
      rfl
  rw [List.map_drop, key n]
  rfl

/-- Names and links of an entry, and the status of its task. -/
def Told (e : Eng) (c : Cov) : Prop :=
  NamedAfter e c ∧ ∀ j f t b, c = .activity j f t b → ∃ I : Inst, e.insts[j]? = some I ∧ t ∈ finishedTasks I

theorem Told.ext {e e' : Eng} {c : Cov} (h : Eng.EExt e e') (hc : Told e c) : Told e' c := by
  refine ⟨?_, fun j f t b hx => ?_⟩
  · have hn := hc.1
    cases c with
    | activity j f t b =>
      obtain ⟨I, a, b⟩ := hn
      obtain ⟨I', a', h'⟩ := h _ I a
      exact ⟨I', a', by rw [h'.defn]; exact b⟩
    | link j f l b =>
      obtain ⟨I, a, b⟩ := hn
      obtain ⟨I', a', h'⟩ := h _ I a
      exact ⟨I', a', by rw [h'.defn]; exact b⟩
    | subflow j f t b =>
      obtain ⟨I, a, b⟩ := hn
      obtain ⟨I', a', h'⟩ := h _ I a
      exact ⟨I', a', by rw [h'.defn]; exact b⟩
  · obtain ⟨I, a, b⟩ := hc.2 j f t b hx
    obtain ⟨I', a', h'⟩ := h _ I a
    refine ⟨I', a', ?_⟩
    obtain ⟨evs, he⟩ := h'.trace
    unfold finishedTasks at b ⊢
    rw [he, List.reverse_append, List.filterMap_append]
    exact List.mem_append_left _ b

theorem toLinks_graph {d : Def} {t : TaskRef} {l : LinkDef} (h : l ∈ d.toLinks t) : l ∈ d.main.links ∨ ∃ g, d.eh = some g ∧ l ∈ g.links := by
  unfold Def.toLinks Graph.toLinks at h
  have h1 := (List.mem_filter.mp h).1
  obtain ⟨b, x⟩ := t
  cases b with
  | false => exact .inl h1
  | true =>
    unfold Def.graph at h1
    cases hd : d.eh with
    | none => rw [hd] at h1; cases h1
    | some g => rw [hd] at h1; exact .inr ⟨g, rfl, h1⟩

theorem doneRowsAny_links {e : Eng} {i : Nat} {I : Inst} {t : TaskRef} : ∀ r ∈ Eng.doneRowsAny env e i I t, r.1 ∈ I.defn.toLinks t := by
  unfold Eng.doneRowsAny
  have h := doneRows_rows env.prio (env.link e i) (I.defn.toLinks t)
  split
  · rename_i hx; rw [hx] at h; exact fun r hr => (h r hr).1
  · rename_i hx; rw [hx] at h; exact fun r hr => (h r hr).1

theorem errorRows_links {ls : List LinkDef} : ∀ r ∈ (errorRows ls).getD [], r.1 ∈ ls := by
  unfold errorRows
  split
  · intro r hr
    simp only [Option.getD_some, List.mem_map] at hr
    obtain ⟨l, hl, rfl⟩ := hr
    split <;> exact hl
  · intro r hr; cases hr

theorem covResult_named {e : Eng} {i : Nat} {I : Inst} (hI : e.insts[i]? = some I) {e2 : Eng} {I2 : Inst} (hI2 : e2.insts[i]? = some I2)
    (hd : I2.defn = I.defn) (t : TaskRef) (r : Eng.EvalOut) :
    ∀ c ∈ Eng.covResult env e i t r, NamedAfter e2 c ∧ ∀ j f u b, c = .activity j f u b → j = i ∧ f = I.defn.name ∧ u = t.id := by
  have hl : ∀ rows, (∀ r ∈ rows, r.1 ∈ I.defn.toLinks t) → ∀ c ∈ Eng.covLinks i I rows,
      NamedAfter e2 c ∧ ∀ j f u b, c = .activity j f u b → j = i ∧ f = I.defn.name ∧ u = t.id := by
    intro rows hrows c hc
    obtain ⟨r, hr, rfl⟩ := List.mem_map.mp hc
    exact ⟨⟨I2, hI2, by rw [hd], by rw [hd]; exact toLinks_graph (hrows r (List.mem_filter.mp hr).1)⟩, fun _ _ _ _ h => nomatch h⟩
  have ha : NamedAfter e2 (e.covActivity i I t) ∧ ∀ j f u b, e.covActivity i I t = .activity j f u b → j = i ∧ f = I.defn.name ∧ u = t.id := by
    refine ⟨⟨I2, hI2, by rw [hd]⟩, fun j f u b h => ?_⟩
    unfold Eng.covActivity at h
    cases h
    exact ⟨rfl, rfl, rfl⟩
  have h2 : ∀ c ∈ Eng.covDone env e i t, NamedAfter e2 c ∧ ∀ j f u b, c = .activity j f u b → j = i ∧ f = I.defn.name ∧ u = t.id := by
    intro c hc
    unfold Eng.covDone at hc
    rw [hI] at hc
    rcases List.mem_append.mp hc with hc | hc
    · exact hl _ doneRowsAny_links c hc
    · cases List.mem_singleton.mp hc
      exact ha
  have h3 : ∀ c ∈ Eng.covError e i t, NamedAfter e2 c ∧ ∀ j f u b, c = .activity j f u b → j = i ∧ f = I.defn.name ∧ u = t.id := by
    intro c hc
    unfold Eng.covError at hc
    rw [hI] at hc
    rcases List.mem_cons.mp hc with rfl | hc
    · exact ha
    · exact hl _ errorRows_links c hc
  unfold Eng.covResult
  split
  · exact h3
  · exact h2
  · exact h2
  · exact fun c hc => nomatch hc

theorem Eng.step_told {e : Eng} (hr : Reachable env e) : ∀ c ∈ covStep env e, Told (e.step env) c := by
  intro c hc
  cases hn : next env e with
  | none => rw [covStep_idle hn] at hc; cases hc
  | some w =>
    cases ho : outcome env (afterPop env e w) w.inst w.obj with
    | none => rw [covStep_none hn ho] at hc; cases hc
    | some x =>
      obtain ⟨e', r⟩ := x
      obtain ⟨J, ob, td, J', ob', hJ, hJo, hcov, hstep, hJ', hd, hob', htask⟩ := evalStep hn ho
      have hext := (Good.step (env := env) e (engOK_reachable hr)).2
      rw [hcov] at hc
      rcases List.mem_append.mp hc with hc | hc
      · obtain ⟨K, _, rfl⟩ := List.mem_map.mp hc
        exact Told.ext hext ⟨⟨J, hJ, rfl⟩, fun _ _ _ _ h => nomatch h⟩
      · obtain ⟨I', hI', hx⟩ := hext _ J hJ
        obtain ⟨h1, h2⟩ := covResult_named hJ' hI' (hx.defn.trans hd.symm) ob.task r c hc
        refine ⟨h1, fun j f t b hact => ?_⟩
        · subst hact
          obtain ⟨rfl, rfl, rfl⟩ := h2 _ _ _ _ rfl
          refine ⟨I', hI', ?_⟩
          obtain ⟨I1, hs2, _, _, hobs⟩ := handle_reads (env := env) reads_task hJ' hob' htask td.name (outcome_ne_fail ho)
          rw [← hstep] at hs2
          obtain ⟨I2, b1, _, _, b4⟩ := hs2.old _ I1 (modI_self hJ' _)
          rw [hI'] at b1
          cases b1
          have h5 : finishedTasks I' = (obs taskFinished I').reverse := by unfold finishedTasks obs; rw [List.filterMap_reverse]
          rw [h5, b4 (nomatch ·), hobs]
          refine List.mem_append_right _ (List.mem_filterMap.mpr ⟨_, hc, if_pos rfl⟩)

theorem recorded_told (id uri : String) (d : Def) (ins : AMap String Val) (n : Nat) :
    ∀ c ∈ (CovRun.run env (CovRun.init env id uri d ins) n).cov, Told (CovRun.run env (CovRun.init env id uri d ins) n).eng c := by
  induction n with
  | zero => exact fun c hc => nomatch hc
  | succ n ih =>
    have hr : Reachable env (CovRun.run env (CovRun.init env id uri d ins) n).eng := ⟨id, uri, d, ins, n, by rw [CovRun.run_eng]; rfl⟩
    intro c hc
    rcases List.mem_append.mp hc with hc | hc
    · exact Told.ext (Eng.Good.step (env := env) _ (Eng.engOK_reachable hr)).2 (ih c hc)
    · exact Eng.step_told hr c hc

end Flow
