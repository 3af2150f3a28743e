import Verif.Proofs.GraphEng

/-
The invariant of `Verif.Proofs.Graph` in the terms of `Verif.Spec.Graph`.
-/

namespace Flow
open Spec GraphM

namespace GraphM

/-- Instances created while a task is evaluated are called by this task, which starts other flows. -/
theorem evals_host {env : Env} {e e' : Eng} {j o : Nat} {s : Option String} (h : Eng.Evals env j o s e e') (ok : Eng.EngOK e) (hr : Eng.Readied e j o) :
    ∀ (k : Nat) (K : Inst), e.insts.length ≤ k → e'.insts[k]? = some K → K.host = some (j, o) ∧ s ≠ none := by
  induction h with
  | refl e =>
    intro k K hk hK
    rw [List.getElem?_eq_none hk] at hK; cases hK
  | inst e f hf =>
    intro k K hk hK
    rw [List.getElem?_eq_none (by rw [Eng.modI_length]; exact hk)] at hK; cases hK
  | reply e r =>
    intro k K hk hK
    have hK : e.insts[k]? = some K := hK
    rw [List.getElem?_eq_none hk] at hK; cases hK
  | sub e uri d inputs hs hd hi =>
    intro k K hk hK
    have fr := Eng.StartFrame.startInstance (env := env) e.insts.length (e.newEmbedded j o uri d) inputs
    have hkl := (List.getElem?_eq_some_iff.1 hK).1
    rw [fr.len, Eng.newEmbedded_length] at hkl
    have hk' : k = e.insts.length := by omega
    subst hk'
    obtain ⟨K', x1, x2⟩ := ((Eng.Good.startInstance (env := env) e.insts.length inputs (e.newEmbedded j o uri d))
      ((Eng.Good.newEmbedded (i := j) (o := o) (uri := uri) (d := d) fun _ => hr) ok).1).2 _ _ (Eng.newEmbedded_new e j o uri d)
    rw [hK] at x1; cases x1
    exact ⟨x2.host, by rw [hs]; exact fun hc => nomatch hc⟩
  | @trans e f g h1 h2 ih1 ih2 =>
    intro k K hk hK
    obtain ⟨okf, exf⟩ := h1.good hr ok
    have hrf := hr.ext exf
    by_cases hkf : f.insts.length ≤ k
    · exact ih2 okf hrf k K hkf hK
    · obtain ⟨K', hK'⟩ : ∃ I, f.insts[k]? = some I := ⟨_, List.getElem?_eq_getElem (by omega)⟩
      obtain ⟨n1, n2⟩ := ih1 ok hr k K' hk hK'
      obtain ⟨K2, h3, h4⟩ := (h2.good hrf okf).2 k K' hK'
      rw [hK] at h3; cases h3
      exact ⟨h4.host.trans n1, n2⟩

/-- Instances created by a step are called by a task that starts other flows. -/
theorem new_host {env : Env} {e : Eng} (ok : Eng.EngOK e) {k : Nat} {K : Inst} (hk : e.insts.length ≤ k) (hK : (e.step env).insts[k]? = some K) :
    ∃ a o, K.host = some (a, o) ∧ e.subOf a o ≠ none := by
  have hl : 0 < e.insts.length := by rw [← ok.ctr]; omega
  have hlt := (List.getElem?_eq_some_iff.1 hK).1
  cases hn : Spec.next env e with
  | none =>
    exfalso
    by_cases hst : e.stack = []
    · rw [Eng.step_idle hst hn hl] at hlt; exact absurd hlt (Nat.not_lt.2 hk)
    · rw [(Eng.EnterFrame.step hst).len] at hlt; exact absurd hlt (Nat.not_lt.2 hk)
  | some w =>
    have hw := List.mem_of_getElem? (Eng.next_some hn).2.2
    have hrd := ok.queue w hw
    rw [Eng.step_next hn] at hK hlt
    have g0 : Eng.Good e (Spec.afterPop env e w) :=
      (Eng.Good.pop (Eng.next_some hn).2.2).trans (Eng.Good.ctl rfl rfl rfl rfl rfl (fun _ _ h => h))
    obtain ⟨ok0, ex0⟩ := g0 ok
    have hrd0 := hrd.ext ex0
    cases ho : Spec.outcome env (Spec.afterPop env e w) w.inst w.obj with
    | none =>
      rw [Eng.exec_none ho] at hlt
      exact absurd hlt (Nat.not_lt.2 hk)
    | some p =>
      obtain ⟨e', r⟩ := p
      cases hob : (Spec.afterPop env e w).obj? w.inst w.obj with
      | none => unfold Spec.outcome at ho; rw [hob] at ho; cases ho
      | some ob =>
        obtain ⟨td, _, h2⟩ := Eng.exec_outcome hob ho
        rw [h2] at hK hlt
        obtain ⟨e1, hev, h1⟩ := Eng.outcome_evals ho
        have hle : e'.insts.length = e1.insts.length := by
          rcases h1 with h1 | ⟨st, h1⟩
          · rw [h1]
          · rw [h1]; exact Eng.modI_length ..
        rw [handleResult_len, hle] at hlt
        obtain ⟨K1, hK1⟩ : ∃ K, e1.insts[k]? = some K := ⟨_, List.getElem?_eq_getElem hlt⟩
        obtain ⟨a1, a2⟩ := evals_host hev ok0 hrd0 k K1 hk hK1
        refine ⟨w.inst, w.obj, ?_, a2⟩
        have hkeep : Eng.Keep (fun _ => True) e1 (e'.handleResult env w.inst w.obj ob.task td.name r) := by
          refine Eng.Keep.trans ?_ (Eng.Keep.handleResult _ _ _ _ _ _ trivial)
          rcases h1 with h1 | ⟨st, h1⟩
          · rw [h1]; exact .refl _
          · rw [h1]; exact .setStatus _ _ _ _ trivial
        obtain ⟨_, _, _, k4, _⟩ := hkeep ⟨fun _ _ _ _ _ _ _ => trivial, fun _ _ => trivial⟩
        obtain ⟨K2, h3, h4⟩ := k4 k K1 hK1
        rw [hK] at h3; cases h3
        exact h4.trans a1

/-- Without instances called by instance `i` there is nothing to be served. -/
theorem NoHost.served {e : Eng} {i : Nat} {I : Inst} (ok : Eng.EngOK e) (hI : e.insts[i]? = some I) (hu : I.handling = false) (h : NoHost e i) : Served e i := by
  refine ⟨fun J hJ o ho => ?_, fun h0 J hJ hm => ?_⟩
  · obtain ⟨j, hj⟩ := List.getElem?_of_mem hJ
    exact absurd rfl (h j J i o hj ho)
  · subst h0
    obtain ⟨j, hj⟩ := List.getElem?_of_mem hJ
    by_cases hj0 : j = 0
    · subst hj0
      rw [hI] at hj; cases hj
      rw [(ok.ok 0 _ hI).eh hm] at hu; cases hu
    · have hlt := (List.getElem?_eq_some_iff.1 hj).1
      obtain ⟨A, hA⟩ : ∃ A, e.insts[1]? = some A := ⟨_, List.getElem?_eq_getElem (by omega)⟩
      obtain ⟨a, o, h1, h2, _⟩ := ok.hosts 1 A hA (by omega)
      exact h 1 A a o hA h1 (by omega)

/-- An instance in the first place that has no subflow is alone. -/
theorem alone {e : Eng} (ok : Eng.EngOK e) (h : NoHost e 0) : e.insts.length ≤ 1 := by
  apply Decidable.byContradiction
  intro hc
  obtain ⟨I, hI⟩ : ∃ I, e.insts[1]? = some I := ⟨_, List.getElem?_eq_getElem (by omega)⟩
  obtain ⟨a, o, h1, h2, _⟩ := ok.hosts 1 I hI (by omega)
  exact h 1 I a o hI h1 (by omega)

theorem Covered.scope {g : Graph} (hc : Covered g) : Scope g := by
  refine ⟨hc.wf, hc.order, fun t ht hs => ?_⟩
  cases ha : t.act with
  | subflow uri => exact hc.sub t ht uri ha
  | _ => rw [ha] at hs; exact absurd rfl hs

/-- A flow without tasks that start other flows calls none. -/
theorem noHost_leaf {env : Env} (hset : SettingsOk env) (id uri : String) (d : Def) (ins : AMap String Val) (n : Nat) :
    ∀ (i : Nat) (I : Inst), (Eng.run env (Eng.init env id uri d ins) n).insts[i]? = some I → Undisturbed I → Covered I.defn.main → Leaf I.defn.main →
      NoHost (Eng.run env (Eng.init env id uri d ins) n) i := by
  induction n with
  | zero =>
    intro i I hI _ _ _ j J a o hJ ha
    have hl : (Eng.init env id uri d ins).insts.length = 1 := (Eng.StartFrame.startInstance (env := env) 0 (Eng.new id uri d) ins).len
    have hJ : (Eng.init env id uri d ins).insts[j]? = some J := hJ
    have hj := (List.getElem?_eq_some_iff.1 hJ).1
    have hj0 : j = 0 := by omega
    subst hj0
    rw [(Eng.engOK_init (env := env) id uri d ins).host0 J hJ] at ha; cases ha
  | succ n ih =>
    intro i I' hI' hu' hc hlf j J a o hJ ha hai
    subst hai
    have ok := Eng.engOK_run (env := env) id uri d ins n
    have hlin := LInv.run hset id uri d ins n
    have hI' : (Eng.step env (Eng.run env (Eng.init env id uri d ins) n)).insts[a]? = some I' := hI'
    have hJ : (Eng.step env (Eng.run env (Eng.init env id uri d ins) n)).insts[j]? = some J := hJ
    generalize Eng.run env (Eng.init env id uri d ins) n = e at *
    have hEE := (Eng.Good.step (env := env) e ok).2
    have hold : ∃ (o : Nat) (I : Inst), e.insts[a]? = some I ∧ (e.subOf a o ≠ none ∨ ∃ (j : Nat) (J : Inst), e.insts[j]? = some J ∧ J.host = some (a, o)) := by
      by_cases hj : j < e.insts.length
      · obtain ⟨J0, hJ0⟩ : ∃ I, e.insts[j]? = some I := ⟨_, List.getElem?_eq_getElem hj⟩
        obtain ⟨J1, h1, h2⟩ := hEE j J0 hJ0
        rw [hJ] at h1; cases h1
        rw [h2.host] at ha
        have hj0 : j ≠ 0 := fun h0 => by
          subst h0
          rw [ok.host0 J0 hJ0] at ha; cases ha
        obtain ⟨b, p, h3, h4, _⟩ := ok.hosts j J0 hJ0 hj0
        rw [ha] at h3; cases h3
        exact ⟨o, _, List.getElem?_eq_getElem (by omega : a < e.insts.length), Or.inr ⟨j, J0, hJ0, ha⟩⟩
      · obtain ⟨b, p, h1, h2⟩ := new_host ok (Nat.le_of_not_lt hj) hJ
        rw [ha] at h1; cases h1
        unfold Eng.subOf Eng.obj? at h2
        cases hA : e.insts[a]? with
        | none => rw [hA] at h2; exact absurd rfl h2
        | some A => exact ⟨o, A, rfl, Or.inl (by unfold Eng.subOf Eng.obj?; rw [hA]; rw [hA] at h2; exact h2)⟩
    obtain ⟨o, I, hI, hcase⟩ := hold
    obtain ⟨I2, h1, hx⟩ := hEE a I hI
    rw [hI'] at h1; cases h1
    have hu : Undisturbed I := by
      constructor
      · cases hc : I.handling with
        | false => rfl
        | true => exact absurd ((hx.handling hc).symm.trans hu'.1) (by simp)
      · cases hc : I.force with
        | false => rfl
        | true => exact absurd ((hx.force hc).symm.trans hu'.2) (by simp)
    rw [hx.defn] at hc hlf
    have hno := ih a I hI hu hc hlf
    rcases hcase with hs | ⟨j, J, h1, h2⟩
    · obtain ⟨G, hIS, _⟩ := hlin a I hI hu.1 hu.2 (Covered.scope hc) (hno.served ok hI hu.1)
      unfold Eng.subOf at hs
      rw [Eng.obj?_eq hI] at hs
      cases hob : I.objs[o]? with
      | none => rw [hob] at hs; exact absurd rfl hs
      | some ob =>
        rw [hob] at hs
        dsimp only at hs
        unfold Eng.taskDef? at hs
        rw [hI] at hs
        dsimp only at hs
        cases htd : I.defn.task? ob.task with
        | none => rw [htd] at hs; exact absurd rfl hs
        | some td =>
          rw [htd] at hs
          dsimp only at hs
          unfold Def.task? Def.graph at htd
          rw [(hIS.sim.objI o ob hob).1] at htd
          have hm := List.mem_of_find?_eq_some htd
          cases hact : td.act with
          | subflow uri => exact hlf td hm uri hact
          | _ => rw [hact] at hs; exact hs rfl
    · exact hno j J a o h1 h2 rfl

end GraphM

/-- The invariant for an undisturbed flow instance with a covered definition. -/
theorem covered_loc {env : Env} (hset : SettingsOk env) {e : Eng} (hr : Reachable env e) {i : Nat} {I : Inst} (hI : e.insts[i]? = some I)
    (hc : Covered I.defn.main) (hu : Undisturbed I) (hsv : Leaf I.defn.main ∨ Served e i) : Loc env e i I := by
  obtain ⟨id, uri, d, ins, n, rfl⟩ := hr
  refine LInv.run hset id uri d ins n i I hI hu.1 hu.2 (Covered.scope hc) ?_
  rcases hsv with hlf | hsv
  · exact (noHost_leaf hset id uri d ins n i I hI hu hc hlf).served (Eng.engOK_run id uri d ins n) hI hu.1
  · exact hsv

namespace GraphM

variable {env : Env} {i : Nat} {g : Graph} {e : Eng} {I : Inst} {G : GS} {single : TaskId → Prop}
  {F : TaskStatus → LinkDef → LinkStatus → Prop} {W : TaskId → Nat → Prop} {cnt : Nat → Nat}

theorem IS.followed (h : IS g single F W I cnt G) (l : LinkDef) : Followed I.trace l ↔ G.dec l.id = .true := by
  unfold Followed
  rw [h.sim.dec]
  exact ⟨fun hx => hx.1.symm, fun hx => ⟨hx.symm, fun hc => nomatch hc⟩⟩

theorem IS.executed (h : IS g single F W I cnt G) (t : TaskId) : Executed I.trace t ↔ ¬ Open (G.st t) ∧ G.st t ≠ .skipped := h.sim.ready t

theorem IS.runs_congr (h : IS g single F W I cnt G) (t : TaskId) : Runs g (Followed I.trace) t ↔ Runs g (fun l => G.dec l.id = .true) t := by
  constructor
  · intro hr
    induction hr with
    | start a b => exact .start a b
    | link hl hf _ ih => exact .link hl ((h.followed _).1 hf) ih
  · intro hr
    induction hr with
    | start a b => exact .start a b
    | link hl hf _ ih => exact .link hl ((h.followed _).2 hf) ih

theorem IS.hasStatus (h : IS g single F W I cnt G) {t : TaskId} {s : TaskStatus} (hs : s ≠ .notStarted) : HasStatus I t s ↔ G.st t = s := by
  constructor
  · rintro ⟨ob, hm, ht, hos⟩
    obtain ⟨o, ho⟩ := List.getElem?_of_mem hm
    obtain ⟨_, h1⟩ := h.sim.objI o ob ho
    rw [ht] at h1
    obtain ⟨ob', h2, _, h3⟩ := h.sim.obj t o h1
    rw [ho] at h2; cases h2
    rw [← h3, hos]
  · intro hst
    cases ho : G.obj t with
    | none => exact absurd ((h.inv.objs t).1 ho) (by rw [hst]; exact hs)
    | some o =>
      obtain ⟨ob, h1, h2, h3⟩ := h.sim.obj t o ho
      exact ⟨ob, List.mem_of_getElem? h1, h2, by rw [h3, hst]⟩

theorem IS.finished (h : IS g single F W I cnt G) (t : TaskId) : Finished I t ↔ Fin (G.st t) := by
  unfold Finished
  rw [h.hasStatus (s := .done) (fun hc => nomatch hc), h.hasStatus (s := .failed) (fun hc => nomatch hc),
    h.hasStatus (s := .skipped) (fun hc => nomatch hc), fin_iff]
  exact or_congr Iff.rfl or_comm

theorem Fin.not_open {s : TaskStatus} (h : Fin s) : ¬ Open s := fun ho => ho.not_fin h

theorem IS.no_items (h : IS g single F W I (loadOf e i) G) (hq : ∀ w ∈ e.queue, w.inst ≠ i) (t : TaskId) : G.st t ≠ .ready := by
  intro hst
  cases ho : G.obj t with
  | none => rw [(h.inv.objs t).1 ho] at hst; cases hst
  | some o =>
    have h1 := h.cnt1 t o ho
    rw [(h.inv.pend t).1 hst] at h1
    have h1 := (load_one.1 h1).1
    have h2 : cntOf e i o = 0 := by
      unfold cntOf
      rw [List.countP_eq_zero]
      exact fun w hw hx => hq w hw (of_decide_eq_true hx).1
    omega

theorem IS.items (h : IS g single F W I (loadOf e i) G) (hn : ∀ t, G.st t ≠ .ready ∧ G.st t ≠ .waiting) : ∀ w ∈ e.queue, w.inst ≠ i := by
  intro w hw hi
  have h1 : cntOf e i w.obj ≠ 0 := by
    unfold cntOf
    rw [Ne, List.countP_eq_zero]
    exact fun hx => hx w hw (decide_eq_true ⟨hi, rfl⟩)
  have h2 : loadOf e i w.obj ≠ 0 := fun hc => h1 (load_zero.1 hc).1
  obtain ⟨t, ht⟩ := h.cnt2 _ h2
  rw [h.cnt1 t _ ht, (h.inv.pend t).2.2 (hn t).1 (hn t).2] at h2
  exact h2 rfl

/-- A task that waits for a subflow has a work item, or the subflow is still running. -/
theorem IS.no_subs (h : IS g single F (Waits g True) I (loadOf e i) G) (hq : ∀ w ∈ e.queue, w.inst ≠ i)
    (hl : ∀ J ∈ e.insts, ∀ o, J.host = some (i, o) → endings J ≠ 0) {t : TaskId} (hs : SubTask g t) : G.st t ≠ .waiting := by
  intro hst
  cases ho : G.obj t with
  | none => rw [(h.inv.objs t).1 ho] at hst; cases hst
  | some o =>
    have hw := (h.inv.pend t).2.1 hst
    rw [← h.cnt1 t o ho] at hw
    refine hw.2.2 trivial hs (load_zero.2 ⟨?_, ?_⟩)
    · unfold cntOf
      rw [List.countP_eq_zero]
      exact fun w hw hx => hq w hw (of_decide_eq_true hx).1
    · unfold liveOf
      rw [List.countP_eq_zero]
      exact fun J hJ hx => hl J hJ o (of_decide_eq_true hx).1 (of_decide_eq_true hx).2

theorem Frames.nil_right {s : List Frame} (h : Frames s []) : s = [] := by cases h; rfl

/-- Completed executions decide the links of a task that ran in both in the same way. -/
theorem link_imp {env env' : Env} {i i' : Nat} {I I' : Inst} {W W' : TaskId → Nat → Prop} {cnt cnt' : Nat → Nat} {G G' : GS} (wf : WellFormed g)
    (h : IS g (Single g) (Fact env g i) W I cnt G) (h' : IS g (Single g) (Fact env' g i') W' I' cnt' G') (hs : G.compl) (hs' : G'.compl)
    {val : LinkDef → ExprOut} (hv : ∀ f l, env.link f i l = val l) (hv' : ∀ f l, env'.link f i' l = val l)
    (ho : ∀ t, Executed I.trace t → Executed I'.trace t → (HasStatus I t .failed ↔ HasStatus I' t .failed)) {l : LinkDef} (hl : l ∈ g.links)
    (hp : Runs g (fun l => G.dec l.id = .true) l.src) (ih : Runs g (fun l => G'.dec l.id = .true) l.src) (hf : G.dec l.id = .true) :
    G'.dec l.id = .true := by
  obtain ⟨a1, a2⟩ := h.inv.completed hs hp
  obtain ⟨b1, b2⟩ := h'.inv.completed hs' ih
  have hst := ho l.src ((h.executed _).2 ⟨Fin.not_open a1, a2⟩) ((h'.executed _).2 ⟨Fin.not_open b1, b2⟩)
  rw [h.hasStatus (s := .failed) (fun hc => nomatch hc), h'.hasStatus (s := .failed) (fun hc => nomatch hc)] at hst
  have hF := h.inv.outs l hl a1 a2
  have hF' := h'.inv.outs l hl b1 b2
  rcases fin_iff.1 a1 with hx | hx | hx
  · have hx' : G'.st l.src = .done := by
      rcases fin_iff.1 b1 with hy | hy | hy
      · exact hy
      · exact absurd hy b2
      · rw [hst.2 hy] at hx; cases hx
    obtain ⟨f, k, k1, _, k2⟩ := hF.1 hx
    obtain ⟨f', k', k1', _, k2'⟩ := hF'.1 hx'
    have hk : k = k' := by
      have hnd : (g.toLinks l.src).Nodup := by
        have h1 : g.links.Nodup := List.Pairwise.of_map (S := fun a b => a ≠ b) (fun l => l.id) (fun _ _ hne hc => hne (by rw [hc])) wf.links
        exact h1.filter _
      exact (List.getElem?_inj (List.getElem?_eq_some_iff.1 k1).1 hnd).1 (k1.trans k1'.symm)
    have hw : env.link f i = env'.link f' i' := by funext m; rw [hv, hv']
    rw [k2', ← hk, ← hw, ← k2]; exact hf
  · exact absurd hx a2
  · rw [hF'.2 (hst.1 hx), ← hF.2 hx]; exact hf

/-- Completed executions, one half. -/
theorem runs_imp {env env' : Env} {i i' : Nat} {I I' : Inst} {W W' : TaskId → Nat → Prop} {cnt cnt' : Nat → Nat} {G G' : GS} (wf : WellFormed g)
    (h : IS g (Single g) (Fact env g i) W I cnt G) (h' : IS g (Single g) (Fact env' g i') W' I' cnt' G') (hs : G.compl) (hs' : G'.compl)
    {val : LinkDef → ExprOut} (hv : ∀ f l, env.link f i l = val l) (hv' : ∀ f l, env'.link f i' l = val l)
    (ho : ∀ t, Executed I.trace t → Executed I'.trace t → (HasStatus I t .failed ↔ HasStatus I' t .failed)) {t : TaskId}
    (hr : Runs g (fun l => G.dec l.id = .true) t) : Runs g (fun l => G'.dec l.id = .true) t := by
  induction hr with
  | start a b => exact .start a b
  | @link l hl hf hp ih => exact .link hl (link_imp wf h h' hs hs' hv hv' ho hl hp ih hf) ih

theorem same_runs {env env' : Env} {i i' : Nat} {I I' : Inst} {W W' : TaskId → Nat → Prop} {cnt cnt' : Nat → Nat} {G G' : GS} (hc : Covered g)
    (h : IS g (Single g) (Fact env g i) W I cnt G) (h' : IS g (Single g) (Fact env' g i') W' I' cnt' G') (hs : G.compl) (hs' : G'.compl)
    {val : LinkDef → ExprOut} (hv : ∀ f l, env.link f i l = val l) (hv' : ∀ f l, env'.link f i' l = val l)
    (ho : ∀ t, Executed I.trace t → Executed I'.trace t → (HasStatus I t .failed ↔ HasStatus I' t .failed)) :
    (∀ t, Executed I.trace t ↔ Executed I'.trace t) ∧ ∀ l ∈ g.links, Followed I.trace l ↔ Followed I'.trace l := by
  have key : ∀ t, Runs g (fun l => G.dec l.id = .true) t ↔ Runs g (fun l => G'.dec l.id = .true) t := fun t =>
    ⟨runs_imp hc.wf h h' hs hs' hv hv' ho, runs_imp hc.wf h' h hs' hs hv' hv (fun t a b => (ho t b a).symm)⟩
  have ex : ∀ {env i W I cnt G}, IS g (Single g) (Fact env g i) W I cnt G → G.compl → ∀ t,
      Executed I.trace t ↔ Runs g (fun l => G.dec l.id = .true) t := by
    intro env i W I cnt G h hs t
    rw [h.executed]
    exact ⟨fun hx => h.inv.runs hc.acyclic hx.1 hx.2, fun hx => ⟨Fin.not_open (h.inv.completed hs hx).1, (h.inv.completed hs hx).2⟩⟩
  have src : ∀ {env i W I cnt G}, IS g (Single g) (Fact env g i) W I cnt G → ∀ l ∈ g.links, G.dec l.id = .true →
      Runs g (fun l => G.dec l.id = .true) l.src := by
    intro env i W I cnt G h l hl hd
    have h1 := (h.inv.lkset l hl).1 (by rw [hd]; exact fun hc => nomatch hc)
    exact h.inv.runs hc.acyclic (Fin.not_open h1) (h.inv.decsrc l hl hd)
  refine ⟨fun t => ?_, fun l hl => ?_⟩
  · rw [ex h hs, ex h' hs', key]
  · rw [h.followed, h'.followed]
    constructor
    · intro hd
      have hp := src h l hl hd
      exact link_imp hc.wf h h' hs hs' hv hv' ho hl hp ((key _).1 hp) hd
    · intro hd
      have hp := src h' l hl hd
      exact link_imp hc.wf h' h hs' hs hv' hv (fun t a b => (ho t b a).symm) hl hp ((key _).2 hp) hd

end GraphM

/-- The definition of the top-level instance. -/
theorem root_defn {env : Env} {id uri : String} {d : Def} {ins : AMap String Val} {n : Nat} {I : Inst}
    (hI : (Eng.run env (Eng.init env id uri d ins) n).insts[0]? = some I) : I.defn = d := by
  obtain ⟨J, h1, h2⟩ := (Eng.Good.startInstance (env := env) 0 ins (Eng.new id uri d) (Eng.engOK_new id uri d)).2 0 { defn := d, uri := uri } rfl
  obtain ⟨K, h3, h4⟩ := (Eng.good_run (env := env) (Eng.init env id uri d ins) n (Eng.engOK_init id uri d ins)).2 0 J h1
  rw [hI] at h3; cases h3
  rw [h4.defn, h2.defn]

/-- The top-level instance exists. -/
theorem root_exists {env : Env} {id uri : String} {d : Def} {ins : AMap String Val} (n : Nat) :
    ∃ I, (Eng.run env (Eng.init env id uri d ins) n).insts[0]? = some I := by
  obtain ⟨J, h1, _⟩ := (Eng.Good.startInstance (env := env) 0 ins (Eng.new id uri d) (Eng.engOK_new id uri d)).2 0 { defn := d, uri := uri } rfl
  obtain ⟨K, h3, _⟩ := (Eng.good_run (env := env) (Eng.init env id uri d ins) n (Eng.engOK_init id uri d ins)).2 0 J h1
  exact ⟨K, h3⟩

/-- A state without work stays as it is. -/
theorem idle_forever {env : Env} {e : Eng} (hl : 0 < e.insts.length) (hs : e.stack = []) (hq : e.queue = []) (n : Nat) :
    (Eng.run env e n).insts = e.insts ∧ (Eng.run env e n).stack = [] ∧ (Eng.run env e n).queue = [] := by
  induction n with
  | zero => exact ⟨rfl, hs, hq⟩
  | succ n ih =>
    obtain ⟨h1, h2, h3⟩ := ih
    show (Eng.step env (Eng.run env e n)).insts = _ ∧ (Eng.step env (Eng.run env e n)).stack = _ ∧ (Eng.step env (Eng.run env e n)).queue = _
    have hn : Spec.next env (Eng.run env e n) = none := by
      unfold Spec.next
      rw [h3]
      split <;> simp
    rw [Eng.step_idle h2 hn (by rw [h1]; exact hl)]
    exact ⟨h1, h2, h3⟩

/-- Nothing happens any more once the main flow is not active and nothing is being entered. -/
theorem over_forever {env : Env} {e : Eng} (hl : 0 < e.insts.length) (hs : e.stack = []) (hst : flowStatus e 0 ≠ some .active) (n : Nat) :
    (Eng.run env e n).insts = e.insts ∧ (Eng.run env e n).stack = [] := by
  induction n with
  | zero => exact ⟨rfl, hs⟩
  | succ n ih =>
    obtain ⟨h1, h2⟩ := ih
    show (Eng.step env (Eng.run env e n)).insts = _ ∧ (Eng.step env (Eng.run env e n)).stack = _
    have hn : Spec.next env (Eng.run env e n) = none := by
      unfold Spec.next
      rw [if_neg]
      rintro ⟨_, h⟩
      refine hst ?_
      unfold flowStatus at h ⊢
      rwa [h1] at h
    rw [Eng.step_idle h2 hn (by rw [h1]; exact hl)]
    exact ⟨h1, h2⟩

/-- The last decision about a link is among the recorded events. -/
theorem lastLink_mem : ∀ {tr : List Ev} {k : LinkId}, lastLink tr k ≠ .unset → .linkStatus k (lastLink tr k) ∈ tr
  | [], _, h => absurd rfl h
  | .linkStatus l s :: tr, k, h => by
    unfold lastLink at h ⊢
    by_cases hk : l = k
    · rw [if_pos hk, hk]; exact List.mem_cons_self ..
    · rw [if_neg hk] at h ⊢; exact List.mem_cons_of_mem _ (lastLink_mem h)
  | .linkRemoved l :: tr, k, h => by
    unfold lastLink at h ⊢
    by_cases hk : l = k
    · rw [if_pos hk] at h; exact absurd rfl h
    · rw [if_neg hk] at h ⊢; exact List.mem_cons_of_mem _ (lastLink_mem h)
  | .taskAdded .. :: _, _, h | .taskStatus .. :: _, _, h | .taskRemoved .. :: _, _, h | .linkAdded .. :: _, _, h | .evalAct .. :: _, _, h
  | .postAct .. :: _, _, h | .ehStart :: _, _, h | .cleared :: _, _, h | .flowStatus .. :: _, _, h => List.mem_cons_of_mem _ (lastLink_mem h)

end Flow
