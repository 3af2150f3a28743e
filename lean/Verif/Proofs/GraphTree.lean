import Verif.Proofs.GraphTerm
import Verif.Spec.Calls

/-
Executions of flows that call other flows come to rest.
-/

namespace Flow.GraphM
open Spec Eng

variable {env : Env} {g : Graph} {e : Eng} {I : Inst} {G : GS}

/-! ### New instances -/

/-- What is known of an instance that was created while task object `o` of instance `j` was evaluated. -/
structure NewInst (env : Env) (j o : Nat) (s : Option String) (K : Inst) : Prop where
  host : K.host = some (j, o)
  ends : endings K = 0
  defn : ∃ uri, s = some uri ∧ env.defs uri = .ok (some K.defn)

theorem evals_newInst (hset : ∀ e i o, env.settingsOk e i o = true) {j o : Nat} {s : Option String} {e' : Eng} (h : Evals env j o s e e')
    (ok : EngOK e) (hr : Readied e j o) (hst : e.stack = []) :
    ∀ (k : Nat) (K : Inst), e.insts.length ≤ k → e'.insts[k]? = some K → NewInst env j o s K := by
  induction h with
  | refl e =>
    intro k K hk hK
    rw [List.getElem?_eq_none hk] at hK; cases hK
  | inst e f hf =>
    intro k K hk hK
    rw [List.getElem?_eq_none (by rw [modI_length]; exact hk)] at hK; cases hK
  | reply e r =>
    intro k K hk hK
    have hK : e.insts[k]? = some K := hK
    rw [List.getElem?_eq_none hk] at hK; cases hK
  | sub e uri d inputs hs hd hi =>
    intro k K hk hK
    have fr := StartFrame.startInstance (env := env) e.insts.length (e.newEmbedded j o uri d) inputs
    have hkl := (List.getElem?_eq_some_iff.1 hK).1
    rw [fr.len, newEmbedded_length] at hkl
    have hk' : k = e.insts.length := by omega
    subst hk'
    obtain ⟨K', h2, h3⟩ := startInstance_calm (env := env) (e.newEmbedded j o uri d) e.insts.length inputs (newEmbedded_new e j o uri d)
    rw [hK] at h2; cases h2
    exact ⟨h3.host, endings_flows h3.flows, uri, hs, by rw [hd, h3.defn]; rfl⟩
  | @trans e f g h1 h2 ih1 ih2 =>
    intro k K hk hK
    obtain ⟨okf, exf⟩ := h1.good hr ok
    have hrf := hr.ext exf
    have hstf : f.stack = [] := by rw [h1.obj.2.2.2.1]; exact hst
    by_cases hkf : f.insts.length ≤ k
    · exact ih2 okf hrf hstf k K hkf hK
    · obtain ⟨K', hK'⟩ : ∃ I, f.insts[k]? = some I := ⟨_, List.getElem?_eq_getElem (by omega)⟩
      have hj := Readied.lt hr
      have n1 := (evals_new hset h1 ok hr hst k K' hk hK').1
      have hkeep := h2.keep (T := fun a => a ≠ k) (show j ≠ k by omega)
      obtain ⟨n3, n4⟩ := n1.other hkeep (by omega) hK'
      rw [hK] at n3; cases n3
      exact ih1 ok hr hst k K hk hK'

/-- Instances created by a step. -/
theorem step_newInst (hset : ∀ e i o, env.settingsOk e i o = true) (ok : EngOK e) {w : WorkItem} (hn : Spec.next env e = some w) {k : Nat} {K : Inst}
    (hk : e.insts.length ≤ k) (hK : (e.step env).insts[k]? = some K) : NewInst env w.inst w.obj (e.subOf w.inst w.obj) K := by
  have hst := (next_some hn).1
  have hw := List.mem_of_getElem? (next_some hn).2.2
  have hrd := ok.queue w hw
  have hwl := Readied.lt hrd
  rw [step_next hn] at hK
  have g0 : Good e (afterPop env e w) :=
    (Good.pop (next_some hn).2.2).trans (Good.ctl rfl rfl rfl rfl rfl (fun _ _ h => h))
  obtain ⟨ok0, ex0⟩ := g0 ok
  have hrd0 := hrd.ext ex0
  cases ho : outcome env (afterPop env e w) w.inst w.obj with
  | none =>
    rw [exec_none ho] at hK
    exact absurd (List.getElem?_eq_some_iff.1 hK).1 (Nat.not_lt.2 hk)
  | some p =>
    obtain ⟨e', r⟩ := p
    cases hob : (afterPop env e w).obj? w.inst w.obj with
    | none => unfold Spec.outcome at ho; rw [hob] at ho; cases ho
    | some ob =>
      obtain ⟨td, _, h2⟩ := exec_outcome hob ho
      rw [h2] at hK
      obtain ⟨e1, hev, h1⟩ := outcome_evals ho
      have hle : e'.insts.length = e1.insts.length := by
        rcases h1 with h1 | ⟨st, h1⟩
        · rw [h1]
        · rw [h1]; exact modI_length ..
      have hlt := (List.getElem?_eq_some_iff.1 hK).1
      rw [handleResult_len, hle] at hlt
      obtain ⟨K1, hK1⟩ : ∃ K, e1.insts[k]? = some K := ⟨_, List.getElem?_eq_getElem hlt⟩
      have n1 := (evals_new hset hev ok0 hrd0 hst k K1 hk hK1).1
      have hwi : w.inst ≠ k := by omega
      have hkeep : Keep (fun a => a ≠ k) e1 (e'.handleResult env w.inst w.obj ob.task td.name r) := by
        refine Keep.trans ?_ (Keep.handleResult _ _ _ _ _ _ hwi)
        rcases h1 with h1 | ⟨st, h1⟩
        · rw [h1]; exact .refl _
        · rw [h1]; exact .setStatus _ _ _ _ hwi
      obtain ⟨n3, _⟩ := n1.other hkeep (by omega) hK1
      rw [hK] at n3; cases n3
      exact evals_newInst hset hev ok0 hrd0 hst k K hk hK1

/-! ### Sums -/

theorem sum_le {α : Type} {f h : α → Nat} : ∀ {l : List α}, (∀ x ∈ l, f x ≤ h x) → (l.map f).sum ≤ (l.map h).sum
  | [], _ => Nat.le_refl _
  | x :: xs, hp => by
    have h1 := hp x List.mem_cons_self
    have h2 := sum_le (l := xs) fun y hy => hp y (List.mem_cons_of_mem _ hy)
    simp only [List.map_cons, List.sum_cons]; omega

theorem sum_drop {α : Type} {f h : α → Nat} {a : α} {c : Nat} (hc : f a + c ≤ h a) :
    ∀ {l : List α}, (∀ x ∈ l, f x ≤ h x) → a ∈ l → (l.map f).sum + c ≤ (l.map h).sum
  | [], _, ha => nomatch ha
  | x :: xs, hp, ha => by
    have h1 := hp x List.mem_cons_self
    have hp' : ∀ y ∈ xs, f y ≤ h y := fun y hy => hp y (List.mem_cons_of_mem _ hy)
    simp only [List.map_cons, List.sum_cons]
    rcases List.mem_cons.1 ha with rfl | ha
    · have := sum_le hp'; omega
    · have := sum_drop hc hp' ha; omega

theorem sum_at {α : Type} {f : α → Nat} {c : Nat} : ∀ {l l' : List α} {i : Nat}, l'.length = l.length → i < l.length →
    (∀ (k : Nat) (a b : α), l[k]? = some a → l'[k]? = some b → f b + (if k = i then c else 0) ≤ f a) → (l'.map f).sum + c ≤ (l.map f).sum
  | [], _, _, _, hi, _ => by simp at hi
  | _ :: _, [], _, hlen, _, _ => by simp at hlen
  | a :: as, b :: bs, i, hlen, hi, hp => by
    simp only [List.map_cons, List.sum_cons]
    have h0 := hp 0 a b rfl rfl
    cases i with
    | zero =>
      rw [if_pos rfl] at h0
      have : ∀ {l l' : List α}, l'.length = l.length → (∀ (k : Nat) (a b : α), l[k]? = some a → l'[k]? = some b → f b ≤ f a) → (l'.map f).sum ≤ (l.map f).sum := by
        intro l
        induction l with
        | nil => intro l' hl _; rw [List.length_nil, List.length_eq_zero_iff] at hl; subst hl; exact Nat.le_refl _
        | cons x xs ih =>
          intro l' hl hq
          cases l' with
          | nil => simp at hl
          | cons y ys =>
            have h1 := hq 0 x y rfl rfl
            have h2 := ih (l' := ys) (by simpa using hl) fun k a b ha hb => hq (k + 1) a b (by simpa using ha) (by simpa using hb)
            simp only [List.map_cons, List.sum_cons]; omega
      have h2 := this (l := as) (l' := bs) (by simpa using hlen) fun k a b ha hb => by
        have := hp (k + 1) a b (by simpa using ha) (by simpa using hb)
        rw [if_neg (by omega)] at this; omega
      omega
    | succ i =>
      rw [if_neg (by omega)] at h0
      have h2 := sum_at (f := f) (c := c) (l := as) (l' := bs) (i := i) (by simpa using hlen) (by simpa using hi) fun k a b ha hb => by
        have := hp (k + 1) a b (by simpa using ha) (by simpa using hb)
        simpa using this
      omega

theorem sum_const {α : Type} {f : α → Nat} {c : Nat} : ∀ {l : List α}, (∀ x ∈ l, f x ≤ c) → (l.map f).sum ≤ l.length * c
  | [], _ => by simp
  | x :: xs, hp => by
    have h1 := hp x List.mem_cons_self
    have h2 := sum_const (l := xs) fun y hy => hp y (List.mem_cons_of_mem _ hy)
    simp only [List.map_cons, List.sum_cons, List.length_cons, Nat.succ_mul]; omega

/-! ### The potential -/

/-- The status of task `t`. -/
def tstat (I : Inst) (t : TaskId) : TaskStatus :=
  (((I.objs.map fun x => (x.task, x.status)).find? fun p => decide (p.1 = ⟨false, t⟩)).map (·.2)).getD .notStarted

/-- The steps that may still be spent on a task. -/
def weight (L : Nat) (P : String → Nat) (t : TaskDef) (s : TaskStatus) : Nat :=
  match t.act.sub? with
  | none => if 30 ≤ s.code then 0 else L + 4
  | some u => if 40 ≤ s.code then 0 else if 30 ≤ s.code then L + 4 else 2 * (L + 4) + P u

def instW (P : String → Nat) (I : Inst) : Nat := (I.defn.main.tasks.map fun t => weight I.defn.main.links.length P t (tstat I t.id)).sum

/-- The steps that may still be done, not counting rounds of loops. -/
def pot (P : String → Nat) (e : Eng) : Nat := (e.insts.map (instW P)).sum + ssize e.stack

theorem weight_top (L : Nat) (P : String → Nat) (t : TaskDef) (s : TaskStatus) : weight L P t s ≤ taskSteps L P t := by
  unfold weight taskSteps
  cases t.act <;> simp only [ActKind.sub?] <;> repeat' split
  all_goals omega

theorem instW_top (P : String → Nat) (I : Inst) : instW P I ≤ graphSteps P I.defn.main := sum_le fun _ _ => weight_top ..

variable {L i : Nat} {P : String → Nat} {t : TaskDef} {s s' : TaskStatus} {sg : TaskId → Prop} {F : TaskStatus → LinkDef → LinkStatus → Prop}
  {W : TaskId → Nat → Prop} {cnt : Nat → Nat}

theorem weight_mono (h1 : Settled s → Settled s') (h2 : Fin s → Fin s') : weight L P t s' ≤ weight L P t s := by
  unfold Settled at h1; unfold Fin at h2; unfold weight
  cases t.act.sub? <;> dsimp only <;> repeat' split
  all_goals omega

theorem weight_open (h1 : ¬ Settled s) (h2 : Settled s') : weight L P t s' + (L + 4) ≤ weight L P t s := by
  unfold Settled at h1 h2; unfold weight
  cases t.act.sub? <;> dsimp only <;> repeat' split
  all_goals omega

theorem weight_call {u : String} (hu : t.act.sub? = some u) (h1 : ¬ Settled s) (h2 : Settled s') : weight L P t s' + (L + 4) + P u ≤ weight L P t s := by
  unfold Settled at h1 h2; unfold weight
  rw [hu]
  dsimp only; repeat' split
  all_goals omega

theorem weight_resume {u : String} (hu : t.act.sub? = some u) (h1 : ¬ Fin s) (h2 : Fin s') : weight L P t s' + (L + 4) ≤ weight L P t s := by
  unfold Fin at h1 h2; unfold weight
  rw [hu]
  dsimp only; repeat' split
  all_goals omega

theorem tstat_like {I I' : Inst} (h : Like I I') (t : TaskId) : tstat I' t = tstat I t := by
  have : (I'.objs.map fun x => (x.task, x.status)) = I.objs.map fun x => (x.task, x.status) := by
    apply List.ext_getElem?
    intro p
    rw [List.getElem?_map, List.getElem?_map]; exact h.core p
  unfold tstat
  rw [this]

theorem instW_like {I I' : Inst} (h : Like I I') : instW P I' = instW P I := by
  have hd : I'.defn = I.defn := by rw [h.eq]
  unfold instW
  rw [hd]
  congr 2
  funext t
  rw [tstat_like h]

theorem IS.tstat {single : TaskId → Prop} {F : TaskStatus → LinkDef → LinkStatus → Prop} {W : TaskId → Nat → Prop} {cnt : Nat → Nat}
    (h : IS g single F W I cnt G) (t : TaskId) : tstat I t = G.st t := by
  unfold GraphM.tstat
  cases hf : (I.objs.map fun x => (x.task, x.status)).find? fun p => decide (p.1 = ⟨false, t⟩) with
  | none =>
    rw [List.find?_eq_none] at hf
    cases ho : G.obj t with
    | none => rw [(h.inv.objs t).1 ho]; rfl
    | some o =>
      obtain ⟨ob, h1, h2, _⟩ := h.sim.obj t o ho
      exact absurd (decide_eq_true h2) (hf _ (List.mem_map_of_mem (List.mem_of_getElem? h1)))
  | some p =>
    have h1 := List.mem_of_find?_eq_some hf
    have h2 := List.find?_some hf
    obtain ⟨ob, hm, rfl⟩ := List.mem_map.1 h1
    have h2 : ob.task = ⟨false, t⟩ := of_decide_eq_true h2
    obtain ⟨o, ho⟩ := List.getElem?_of_mem hm
    obtain ⟨_, h3⟩ := h.sim.objI o ob ho
    rw [h2] at h3
    obtain ⟨ob', h4, _, h5⟩ := h.sim.obj t o h3
    rw [ho] at h4; cases h4
    exact h5

theorem IS.instW {single : TaskId → Prop} {F : TaskStatus → LinkDef → LinkStatus → Prop} {W : TaskId → Nat → Prop} {cnt : Nat → Nat}
    (h : IS g single F W I cnt G) : instW P I = (g.tasks.map fun t => weight g.links.length P t (G.st t.id)).sum := by
  unfold GraphM.instW
  rw [h.defn]
  congr 2
  funext t
  rw [h.tstat]

/-! ### Steps -/

theorem Smooth.served (ok : EngOK e) (h : Smooth e) (i : Nat) : Served e i := by
  refine ⟨h.2 i, fun _ J hJ hm => ?_⟩
  obtain ⟨j, hj⟩ := List.getElem?_of_mem hJ
  have := (ok.ok j J hj).eh hm
  rw [(h.1 J hJ).1] at this; cases this

theorem Smooth.calmed (h : Smooth e) (i : Nat) : Calmed e i := fun J hJ _ _ => (h.1 J hJ).1

theorem undisturbed_back {e' : Eng} (hx : EExt e e') (h : ∀ J ∈ e'.insts, Undisturbed J) : ∀ J ∈ e.insts, Undisturbed J := by
  intro J hJ
  obtain ⟨j, hj⟩ := List.getElem?_of_mem hJ
  obtain ⟨J', h1, h2⟩ := hx j J hj
  have h3 := h J' (List.mem_of_getElem? h1)
  constructor
  · cases hc : J.handling with
    | false => rfl
    | true => rw [h3.1.symm.trans (h2.handling hc)]
  · cases hc : J.force with
    | false => rfl
    | true => rw [h3.2.symm.trans (h2.force hc)]

theorem Smooth.back {e' : Eng} (hx : EExt e e') (h : Smooth e') : Smooth e := by
  refine ⟨undisturbed_back hx h.1, fun i J hJ o ho => ?_⟩
  obtain ⟨j, hj⟩ := List.getElem?_of_mem hJ
  obtain ⟨J', h1, h2⟩ := hx j J hj
  exact Nat.le_trans (aged_ext h2).ends (h.2 i J' (List.mem_of_getElem? h1) o (h2.host.trans ho))

/-- What the instances of the flow have to satisfy. -/
structure Fit (env : Env) (P : String → Nat) (g : Graph) : Prop where
  calls : Calls g
  steps : ∀ t ∈ g.tasks, ∀ u, t.act.sub? = some u → ∀ d, env.defs u = .ok (some d) → graphSteps P d.main ≤ P u

theorem Fit.single (h : Fit env P g) {t : TaskDef} (ht : t ∈ g.tasks) {u : String} (hu : t.act.sub? = some u) : Single g t.id := by
  have ha : t.act = .subflow u := by
    cases ha : t.act with
    | subflow v => rw [ha] at hu; simp only [ActKind.sub?, Option.some.injEq] at hu; rw [hu]
    | _ => rw [ha] at hu; simp [ActKind.sub?] at hu
  exact ⟨t, ht, rfl, h.calls.covered.sub t ht u ha, h.calls.once t ht u ha⟩

/-- The number of instances that were called by one task and have not ended bounds the number of new instances. -/
theorem new_le_live {e' : Eng} {i o n : Nat} (h : ∀ (k : Nat) (K : Inst), n ≤ k → e'.insts[k]? = some K → K.host = some (i, o) ∧ endings K = 0) :
    (e'.insts.drop n).length ≤ liveOf e' i o := by
  unfold liveOf
  have h1 : (e'.insts.drop n).countP (fun J => decide (J.host = some (i, o) ∧ endings J = 0)) = (e'.insts.drop n).length := by
    rw [List.countP_eq_length]
    intro K hK
    obtain ⟨k, hk⟩ := List.getElem?_of_mem hK
    rw [List.getElem?_drop] at hk
    exact decide_eq_true (h _ K (Nat.le_add_right ..) hk)
  rw [← h1]
  exact (List.drop_sublist n _).countP_le

theorem sub_of (h : IS g sg F W I cnt G) (hI : e.insts[i]? = some I) {u : TaskId} {o : Nat} (ho : G.obj u = some o) (hu : Live (G.st u)) :
    ∃ td ∈ g.tasks, td.id = u ∧ e.subOf i o = td.act.sub? := by
  obtain ⟨ob, hob, hot, hos⟩ := h.sim.obj u o ho
  have hobj : e.obj? i o = some ob := (obj?_eq hI).trans hob
  obtain ⟨td0, htd0, hid0⟩ := h.inv.dom u hu.ne_notStarted
  have htd : ∃ td, I.defn.task? ob.task = some td ∧ td ∈ g.tasks ∧ td.id = u := by
    rw [hot]
    unfold Def.task? Def.graph
    dsimp only
    rw [h.defn]
    cases hf : g.tasks.find? (fun x => decide (x.id = u)) with
    | none =>
      rw [List.find?_eq_none] at hf
      exact absurd (decide_eq_true hid0) (hf td0 htd0)
    | some td => exact ⟨td, rfl, List.mem_of_find?_eq_some hf, by simpa using List.find?_some hf⟩
  obtain ⟨td, htd, htdm, htdid⟩ := htd
  refine ⟨td, htdm, htdid, ?_⟩
  have htd' : e.taskDef? i ob.task = some td := by unfold Eng.taskDef?; rw [hI]; exact htd
  unfold Eng.subOf
  rw [hobj]
  dsimp only
  rw [htd']

/-- Every step reduces the potential, unless it is a round of a loop or there is nothing to do. -/
theorem pot_step (hset : SettingsOk env) (ok : EngOK e) (hlin : LInv env e) (hfit : ∀ I ∈ e.insts, Fit env P I.defn.main)
    (hsm : Smooth (e.step env)) (hcur : e.stack = [] ∨ e.cur < e.insts.length) :
    (e.stack = [] ∧ Spec.next env e = none) ∨ ((e.step env).stack = [] ∨ (e.step env).cur < (e.step env).insts.length) ∧
      pot P (e.step env) + 1 ≤ pot P e + (loopsBack env e).toNat := by
  have hl : 0 < e.insts.length := by rw [← ok.ctr]; omega
  obtain ⟨ok', hEE⟩ := Good.step (env := env) e ok
  have hsm0 := Smooth.back hEE hsm
  have hsv' := fun i => Smooth.served ok' hsm i
  have hloc : ∀ (i : Nat) (I : Inst), e.insts[i]? = some I → Loc env e i I := fun i I hI =>
    hlin i I hI (hsm0.1 I (List.mem_of_getElem? hI)).1 (hsm0.1 I (List.mem_of_getElem? hI)).2
      (Covered.scope (hfit I (List.mem_of_getElem? hI)).calls.covered) (Smooth.served ok hsm0 i)
  have hlen : e.insts.length ≤ (e.step env).insts.length := by
    obtain ⟨I, hI⟩ : ∃ I, e.insts[e.insts.length - 1]? = some I := ⟨_, List.getElem?_eq_getElem (by omega)⟩
    obtain ⟨I', hI', _⟩ := hEE _ I hI
    have := (List.getElem?_eq_some_iff.1 hI').1
    omega
  have other : ∀ (i : Nat) (a b : Inst), e.insts[i]? = some a → (e.step env).insts[i]? = some b → (e.stack = [] ∨ e.cur ≠ i) →
      (∀ w, Spec.next env e = some w → w.inst ≠ i) → instW P b = instW P a := by
    intro i a b ha hb h1 h2
    obtain ⟨b', h3, h4⟩ := (Sees.step (env := env) (EngOK.top ok) (List.getElem?_eq_some_iff.1 ha).1 h1 h2).inst (hsv' i).2 a ha
    rw [hb] at h3; cases h3
    exact instW_like h4
  -- the instance that does the step loses `c`, the others nothing
  have total : ∀ (i c : Nat), i < e.insts.length → (e.stack = [] ∨ e.cur = i) → (∀ w, Spec.next env e = some w → w.inst = i) →
      (∀ a b, e.insts[i]? = some a → (e.step env).insts[i]? = some b → instW P b + c ≤ instW P a) →
      (((e.step env).insts.take e.insts.length).map (instW P)).sum + c ≤ (e.insts.map (instW P)).sum := by
    intro i c hi h1 h2 h3
    refine sum_at (i := i) (by rw [List.length_take]; omega) hi fun k a b ha hb => ?_
    have hk := (List.getElem?_eq_some_iff.1 ha).1
    rw [List.getElem?_take_of_lt hk] at hb
    by_cases hki : k = i
    · subst hki; rw [if_pos rfl]; exact h3 a b ha hb
    · rw [if_neg hki, Nat.add_zero]
      refine Nat.le_of_eq (other k a b ha hb ?_ fun w hw hc => hki (hc.symm.trans (h2 w hw)))
      exact h1.imp id fun hc hk' => hki (hk'.symm.trans hc)
  have split : ((e.step env).insts.map (instW P)).sum = (((e.step env).insts.take e.insts.length).map (instW P)).sum +
      (((e.step env).insts.drop e.insts.length).map (instW P)).sum := by
    rw [← List.sum_append, ← List.map_append, List.take_append_drop]
  cases hn : Spec.next env e with
  | none =>
    by_cases hst : e.stack = []
    · exact Or.inl ⟨hst, rfl⟩
    · refine Or.inr ?_
      have hdrop : (e.step env).insts.drop e.insts.length = [] := by
        rw [List.drop_eq_nil_iff, (EnterFrame.step hst).len]; exact Nat.le_refl _
      have hcl : e.cur < e.insts.length := hcur.resolve_left hst
      obtain ⟨I, hI⟩ : ∃ I, e.insts[e.cur]? = some I := ⟨_, List.getElem?_eq_getElem hcl⟩
      obtain ⟨I', hI', hx⟩ := hEE _ I hI
      have hf := hfit I (List.mem_of_getElem? hI)
      have hu' := hsm.1 I' (List.mem_of_getElem? hI')
      obtain ⟨G, hIS, hfr⟩ := hloc _ I hI
      rw [if_pos rfl] at hfr
      obtain ⟨G', a1, a2, a3, a4, a5⟩ := own_inner hset hIS hf.calls.covered.wf hf.calls.covered.order hI rfl hfr hst
        (hsm0.1 I (List.mem_of_getElem? hI)).2 (host_ne ok hI) I' hI' hu'.1 hu'.2
      have w1 := hIS.instW (P := P)
      have w2 := a1.instW (P := P)
      refine ⟨Or.inr (by rw [a4]; omega), ?_⟩
      unfold pot
      rw [split, hdrop]
      simp only [List.map_nil, List.sum_nil]
      rcases a5 with ⟨b1, _⟩ | ⟨td, b1, b2, b3, b4, _⟩
      · have := total e.cur 0 hcl (Or.inr rfl) (fun w hw => by rw [hn] at hw; cases hw) fun a b ha hb => by
          rw [hI] at ha; cases ha
          rw [hI'] at hb; cases hb
          rw [w1, w2]
          exact sum_le fun t _ => weight_mono (a3.1 _) (a3.2 _)
        omega
      · have := total e.cur (I.defn.main.links.length + 4) hcl (Or.inr rfl) (fun w hw => by rw [hn] at hw; cases hw) fun a b ha hb => by
          rw [hI] at ha; cases ha
          rw [hI'] at hb; cases hb
          rw [w1, w2]
          exact sum_drop (f := fun t => weight _ P t (G'.st t.id)) (h := fun t => weight _ P t (G.st t.id)) (weight_open b2 b3.settled) (fun t _ => weight_mono (a3.1 _) (a3.2 _)) b1
        omega
  | some w =>
    refine Or.inr ?_
    have hst := (next_some hn).1
    have hw := List.mem_of_getElem? (next_some hn).2.2
    have hwl := Readied.lt (ok.queue w hw)
    obtain ⟨I, hI⟩ : ∃ I, e.insts[w.inst]? = some I := ⟨_, List.getElem?_eq_getElem hwl⟩
    obtain ⟨I', hI', hx⟩ := hEE _ I hI
    have hf := hfit I (List.mem_of_getElem? hI)
    have hu := hsm0.1 I (List.mem_of_getElem? hI)
    have hu' := hsm.1 I' (List.mem_of_getElem? hI')
    obtain ⟨G, hIS, hfr⟩ := hloc _ I hI
    have hstk : G.stk = [] := by
      rw [hst, ite_self] at hfr
      exact hfr.nil_iff
    have hwf := hf.calls.covered.wf
    obtain ⟨t, ht, hlive, hwt, hone, hpop⟩ := own_next hn hIS
    have hpost := own_exec (e := afterPop env e w) hIS hwf hf.calls.covered.order (Covered.scope hf.calls.covered).sub hstk ht hlive hwt waits_two hone hI hst hpop hu.1
      (host_ne ok hI)
    have hI'' := hI'
    rw [step_next hn] at hI''
    obtain ⟨G', a1, _, a3⟩ := hpost I' hI'' hu'.1 hu'.2
    rw [← step_next hn] at a1 a3
    obtain ⟨td, htd, hid, hsub⟩ := sub_of hIS hI ht hlive
    have hsubT : SubTask I.defn.main t ↔ td.act.sub? ≠ none := by
      constructor
      · rintro ⟨td', h1, h2, h3⟩; rw [← tasks_inj hwf h1 htd (h2.trans hid.symm)]; exact h3
      · exact fun hx => ⟨td, htd, hid, hx⟩
    have hother : ∀ t' ∈ I.defn.main.tasks, t' ≠ td → t'.id ≠ t := fun t' h1 h2 h3 => h2 (tasks_inj hwf h1 htd (h3.trans hid.symm))
    -- new instances
    have hnew : ∀ (k : Nat) (K : Inst), e.insts.length ≤ k → (e.step env).insts[k]? = some K → NewInst env w.inst w.obj (e.subOf w.inst w.obj) K :=
      fun k K hk hK => step_newInst hset ok hn hk hK
    have hm := new_le_live (i := w.inst) (o := w.obj) fun k K hk hK => ⟨(hnew k K hk hK).host, (hnew k K hk hK).ends⟩
    have hobj' : G'.obj t = some w.obj := by
      obtain ⟨ob, h1, h2, _⟩ := hIS.sim.obj t _ ht
      obtain ⟨ob', h3, h4⟩ := hx.objs _ ob h1
      have := (a1.sim.objI _ ob' h3).2
      rw [h4, h2] at this
      exact this
    have hpend := a1.inv.pend t
    rw [← a1.cnt1 t _ hobj'] at hpend
    have hnone : td.act.sub? = none → ((e.step env).insts.drop e.insts.length) = [] := by
      intro h0
      cases hd : (e.step env).insts.drop e.insts.length with
      | nil => rfl
      | cons K Ks =>
        have : ((e.step env).insts.drop e.insts.length)[0]? = some K := by rw [hd]; rfl
        rw [List.getElem?_drop] at this
        obtain ⟨u, hu, _⟩ := (hnew _ K (Nat.le_add_right ..) this).defn
        rw [hsub, h0] at hu; cases hu
    have hsum : ∀ u, td.act.sub? = some u → (((e.step env).insts.drop e.insts.length).map (instW P)).sum ≤
        ((e.step env).insts.drop e.insts.length).length * P u := by
      intro u hu
      refine sum_const fun K hK => ?_
      obtain ⟨k, hk⟩ := List.getElem?_of_mem hK
      rw [List.getElem?_drop] at hk
      obtain ⟨v, h1, h2⟩ := (hnew _ K (Nat.le_add_right ..) hk).defn
      rw [hsub, hu] at h1; cases h1
      exact Nat.le_trans (instW_top P K) (hf.steps td htd u hu _ h2)
    have tot := fun c => total w.inst c hwl (Or.inl hst) (fun v hv => by rw [hn] at hv; cases hv; rfl)
    have w1 := hIS.instW (P := P)
    have w2 := a1.instW (P := P)
    refine ⟨?_, ?_⟩
    · rcases a3 with ⟨s, _, _, b1, _⟩ | ⟨_, b1, _⟩
      · exact b1.imp id fun hc => by rw [hc]; omega
      · exact Or.inl b1
    unfold pot
    rw [split, hst]
    simp only [ssize]
    rcases a3 with ⟨s, b1, b2, _, b3, b4, _⟩ | ⟨b1, b2, b0, _, ⟨e1, b3⟩, _⟩
    · have hs' : G'.st t = s := by rw [b2, upd_self]
      have hmono : ∀ x ∈ I.defn.main.tasks, weight I.defn.main.links.length P x (G'.st x.id) ≤ weight I.defn.main.links.length P x (G.st x.id) := by
        intro x hxm
        by_cases hxt : x.id = t
        · rw [hxt]
          refine weight_mono (fun _ => by rw [hs']; exact b1) fun hc => absurd hc hlive.not_fin
        · rw [b2, upd_ne _ _ hxt]; exact Nat.le_refl _
      have drop : ∀ c, weight I.defn.main.links.length P td s + c ≤ weight I.defn.main.links.length P td (G.st t) →
          (((e.step env).insts.take e.insts.length).map (instW P)).sum + c ≤ (e.insts.map (instW P)).sum := by
        intro c hc
        refine tot c fun a b ha hb => ?_
        rw [hI] at ha; cases ha
        rw [hI'] at hb; cases hb
        rw [w1, w2]
        exact sum_drop (by rw [hid, hs']; exact hc) hmono htd
      have hfin : s ≠ .waiting → Fin s := by
        unfold Settled at b1; unfold Fin
        cases s <;> simp [TaskStatus.code] at b1 ⊢
      rw [hs'] at hpend
      have hgone : s ≠ .waiting → ((e.step env).insts.drop e.insts.length) = [] := by
        intro h1
        have h2 := hpend.2.2 (fun hc => by rw [hc] at b1; simp [Settled, TaskStatus.code] at b1) h1
        have h3 := (load_zero.1 h2).2
        rw [h3] at hm
        exact List.length_eq_zero_iff.1 (Nat.le_zero.1 hm)
      cases hact : td.act.sub? with
      | none =>
        have hrd : G.st t = .ready := hlive.resolve_right fun hc => hsubT.1 (hwt hc) hact
        have := drop (I.defn.main.links.length + 4) (weight_open (by rw [hrd]; simp [Settled, TaskStatus.code]) b1)
        rw [hnone hact]
        simp only [List.map_nil, List.sum_nil]
        omega
      | some u =>
        by_cases hsw : s = .waiting
        · have hrd : G.st t = .ready := hlive.resolve_right fun hc => b4 hsw hc (by rw [← hid]; exact hf.single htd hact)
          have h1 := load_le.1 (hpend.2.1 hsw).1
          have h2 := hsum u hact
          have h3 : ((e.step env).insts.drop e.insts.length).length * P u ≤ 1 * P u := Nat.mul_le_mul_right _ (by omega)
          have := drop (I.defn.main.links.length + 4 + P u) (by
            have := weight_call (L := I.defn.main.links.length) (P := P) hact (s := G.st t) (s' := s) (by rw [hrd]; simp [Settled, TaskStatus.code]) b1
            omega)
          omega
        · have := drop (I.defn.main.links.length + 4) (weight_resume hact hlive.not_fin (hfin hsw))
          rw [hgone hsw]
          simp only [List.map_nil, List.sum_nil]
          omega
    · have hlb : loopsBack env e = true := by
        unfold loopsBack
        rw [hn, Option.any_some, b3]
        rfl
      have hgone : ((e.step env).insts.drop e.insts.length) = [] := by
        have h2 := hpend.1 (by rw [b1]; exact b0)
        have h3 := (load_one.1 h2).2
        rw [h3] at hm
        exact List.length_eq_zero_iff.1 (Nat.le_zero.1 hm)
      have := tot 0 fun a b ha hb => by
        rw [hI] at ha; cases ha
        rw [hI'] at hb; cases hb
        rw [w1, w2, b1]; exact Nat.le_refl _
      rw [hgone, hlb, b2]
      simp only [List.map_nil, List.sum_nil, ssize, Bool.toNat_true]
      omega

/-! ### Runs -/

theorem sub?_iff {a : ActKind} {u : String} : a.sub? = some u ↔ a = .subflow u := by
  cases a <;> simp [ActKind.sub?]

theorem graphSteps_congr {P Q : String → Nat} (h : ∀ t ∈ g.tasks, ∀ u, t.act = .subflow u → P u = Q u) : graphSteps P g = graphSteps Q g := by
  unfold graphSteps
  congr 1
  refine List.map_congr_left fun t ht => ?_
  unfold taskSteps
  cases ha : t.act with
  | subflow u => dsimp only; rw [h t ht u ha]
  | _ => rfl

variable {depth : String → Nat}

/-- Deeper nesting than there is makes no difference. -/
theorem flowSteps_stable (hn : Nested env depth) : ∀ {k : Nat} {u : String}, depth u < k → flowSteps env (k + 1) u = flowSteps env k u
  | 0, _, h => absurd h (Nat.not_lt_zero _)
  | k + 1, u, h => by
    show (match env.defs u with | .ok (some d) => graphSteps (flowSteps env (k + 1)) d.main | _ => 0) =
      (match env.defs u with | .ok (some d) => graphSteps (flowSteps env k) d.main | _ => 0)
    split
    · rename_i d hd
      refine graphSteps_congr fun t ht v hv => ?_
      have := hn.down u d hd t ht v hv
      exact flowSteps_stable hn (by omega)
    · rfl

/-- The flow and what it calls. -/
structure Rooted (depth : String → Nat) (k : Nat) (g : Graph) : Prop where
  calls : Calls g
  deep : ∀ t ∈ g.tasks, ∀ u, t.act = .subflow u → depth u < k

theorem Rooted.fit (hn : Nested env depth) {k : Nat} (h : Rooted depth k g) : Fit env (flowSteps env k) g := by
  refine ⟨h.calls, fun t ht u hu d hd => ?_⟩
  have h1 := h.deep t ht u (sub?_iff.1 hu)
  obtain ⟨k, rfl⟩ : ∃ m, k = m + 1 := ⟨k - 1, by omega⟩
  have h2 : flowSteps env (k + 1) u = graphSteps (flowSteps env k) d.main := by
    show (match env.defs u with | .ok (some d) => graphSteps (flowSteps env k) d.main | _ => 0) = _
    rw [hd]
  rw [h2]
  refine Nat.le_of_eq (graphSteps_congr fun t' ht' v hv => ?_)
  have := hn.down u d hd t' ht' v hv
  exact flowSteps_stable hn (by omega)

theorem Rooted.callee (hn : Nested env depth) {k : Nat} (h : Rooted depth k g) (ht : t ∈ g.tasks) {u : String} (hu : t.act = .subflow u) {d : Def}
    (hd : env.defs u = .ok (some d)) : Rooted depth k d.main :=
  ⟨hn.calls u d hd, fun t' ht' v hv => by
    have h1 := hn.down u d hd t' ht' v hv
    have h2 := h.deep t ht u hu
    omega⟩

/-- All instances belong to the call tree. -/
theorem rooted_step (hset : SettingsOk env) (hn : Nested env depth) (ok : EngOK e) (hlin : LInv env e) {k : Nat}
    (h : ∀ I ∈ e.insts, Rooted depth k I.defn.main) (hsm : Smooth e) : ∀ I ∈ (e.step env).insts, Rooted depth k I.defn.main := by
  intro K hK
  obtain ⟨j, hj⟩ := List.getElem?_of_mem hK
  by_cases hjl : j < e.insts.length
  · obtain ⟨J, hJ⟩ : ∃ I, e.insts[j]? = some I := ⟨_, List.getElem?_eq_getElem hjl⟩
    obtain ⟨J', h1, h2⟩ := (Good.step (env := env) e ok).2 j J hJ
    rw [hj] at h1; cases h1
    rw [h2.defn]; exact h J (List.mem_of_getElem? hJ)
  · have hl : 0 < e.insts.length := by rw [← ok.ctr]; omega
    have hlt := (List.getElem?_eq_some_iff.1 hj).1
    cases hx : Spec.next env e with
    | none =>
      exfalso
      by_cases hst : e.stack = []
      · rw [step_idle hst hx hl] at hlt; exact hjl hlt
      · rw [(EnterFrame.step hst).len] at hlt; exact hjl hlt
    | some w =>
      have hni := step_newInst hset ok hx (Nat.le_of_not_lt hjl) hj
      have hwl := Readied.lt (ok.queue w (List.mem_of_getElem? (next_some hx).2.2))
      obtain ⟨I, hI⟩ : ∃ I, e.insts[w.inst]? = some I := ⟨_, List.getElem?_eq_getElem hwl⟩
      have hm := List.mem_of_getElem? hI
      have hr := h I hm
      obtain ⟨G, hIS, _⟩ := hlin _ I hI (hsm.1 I hm).1 (hsm.1 I hm).2 (Covered.scope hr.calls.covered) (Smooth.served ok hsm _)
      obtain ⟨t, ht, hlive, _⟩ := own_next hx hIS
      obtain ⟨td, htd, _, hsub⟩ := sub_of hIS hI ht hlive
      obtain ⟨u, h1, h2⟩ := hni.defn
      rw [hsub] at h1
      exact hr.callee hn htd (sub?_iff.1 h1) h2

theorem next_idle (hst : e.stack = []) (hn : Spec.next env e = none) (hl : 0 < e.insts.length) :
    (e.step env).stack = [] ∧ Spec.next env (e.step env) = none := by
  rw [step_idle hst hn hl]
  refine ⟨hst, ?_⟩
  cases hn' : Spec.next env { e with stepID := e.stepID + 1 } with
  | none => rfl
  | some w =>
    exfalso
    obtain ⟨b1, b2, b3⟩ := next_some hn'
    have hq : e.queue ≠ [] := by
      intro hq
      have b3 : e.queue[_]? = some w := b3
      rw [hq] at b3; simp at b3
    have hpos := List.length_pos_iff.2 hq
    unfold Spec.next at hn
    rw [if_pos ⟨hst, b2⟩, List.getElem?_eq_getElem (Nat.mod_lt _ hpos)] at hn
    cases hn

theorem loopRounds_succ (e : Eng) (n : Nat) : loopRounds env e (n + 1) = loopRounds env e n + (loopsBack env (Eng.run env e n)).toNat := by
  unfold loopRounds
  rw [List.range_succ, List.countP_append, List.countP_singleton]
  cases loopsBack env (Eng.run env e n) <;> rfl

/-- The state after `n` steps. -/
theorem tree_run (hset : SettingsOk env) (hn : Nested env depth) {d : Def} {k : Nat} (hd : Rooted depth k d.main) (id uri : String)
    (ins : AMap String Val) (n : Nat) (hsm : Smooth (Eng.run env (Eng.init env id uri d ins) n)) :
    (∀ I ∈ (Eng.run env (Eng.init env id uri d ins) n).insts, Rooted depth k I.defn.main) ∧
    ((Eng.run env (Eng.init env id uri d ins) n).stack = [] ∨
      (Eng.run env (Eng.init env id uri d ins) n).cur < (Eng.run env (Eng.init env id uri d ins) n).insts.length) ∧
    (((Eng.run env (Eng.init env id uri d ins) n).stack = [] ∧ Spec.next env (Eng.run env (Eng.init env id uri d ins) n) = none) ∨
      pot (flowSteps env k) (Eng.run env (Eng.init env id uri d ins) n) + n ≤
        graphSteps (flowSteps env k) d.main + loopRounds env (Eng.init env id uri d ins) n) := by
  induction n with
  | zero =>
    have hs : (Eng.init env id uri d ins).stack = [] := (StartFrame.startInstance (env := env) 0 (Eng.new id uri d) ins).stack
    have hl : (Eng.init env id uri d ins).insts.length = 1 := (StartFrame.startInstance (env := env) 0 (Eng.new id uri d) ins).len
    obtain ⟨I0, hI0⟩ := root_exists (env := env) (id := id) (uri := uri) (d := d) (ins := ins) 0
    have hI0 : (Eng.init env id uri d ins).insts[0]? = some I0 := hI0
    have hd0 : I0.defn = d := root_defn (n := 0) hI0
    have hall : (Eng.init env id uri d ins).insts = [I0] := by
      obtain ⟨x, hx⟩ := List.length_eq_one_iff.1 hl
      rw [hx] at hI0 ⊢
      rw [List.getElem?_cons_zero, Option.some.injEq] at hI0
      rw [hI0]
    refine ⟨fun I hI => ?_, Or.inl hs, Or.inr ?_⟩
    · have hI : I ∈ (Eng.init env id uri d ins).insts := hI
      rw [hall, List.mem_singleton] at hI
      rw [hI, hd0]; exact hd
    · show pot _ (Eng.init env id uri d ins) + 0 ≤ _
      unfold pot
      rw [hall, hs]
      have := instW_top (flowSteps env k) I0
      rw [hd0] at this
      simp only [List.map_cons, List.map_nil, List.sum_cons, List.sum_nil, ssize]
      omega
  | succ n ih =>
    have ok := engOK_run (env := env) id uri d ins n
    have hlin := LInv.run hset id uri d ins n
    have hk := loopRounds_succ (env := env) (Eng.init env id uri d ins) n
    have hsm : Smooth (Eng.step env (Eng.run env (Eng.init env id uri d ins) n)) := hsm
    show (∀ I ∈ (Eng.step env (Eng.run env (Eng.init env id uri d ins) n)).insts, _) ∧
      ((Eng.step env (Eng.run env (Eng.init env id uri d ins) n)).stack = [] ∨ (Eng.step env (Eng.run env (Eng.init env id uri d ins) n)).cur <
        (Eng.step env (Eng.run env (Eng.init env id uri d ins) n)).insts.length) ∧
      (((Eng.step env (Eng.run env (Eng.init env id uri d ins) n)).stack = [] ∧ Spec.next env (Eng.step env (Eng.run env (Eng.init env id uri d ins) n)) = none) ∨
        pot (flowSteps env k) (Eng.step env (Eng.run env (Eng.init env id uri d ins) n)) + (n + 1) ≤ _)
    rw [hk]
    generalize loopRounds env (Eng.init env id uri d ins) n = c at *
    generalize Eng.run env (Eng.init env id uri d ins) n = e at *
    have hl : 0 < e.insts.length := by rw [← ok.ctr]; omega
    have hsm0 := Smooth.back (Good.step (env := env) e ok).2 hsm
    obtain ⟨h1, h2, h3⟩ := ih hsm0
    refine ⟨rooted_step hset hn ok hlin h1 hsm0, ?_⟩
    rcases pot_step hset ok hlin (fun I hI => (h1 I hI).fit hn) hsm h2 with ⟨b1, b2⟩ | ⟨b1, b2⟩
    · have := next_idle b1 b2 hl
      exact ⟨Or.inl this.1, Or.inl this⟩
    · refine ⟨b1, ?_⟩
      rcases h3 with ⟨c1, c2⟩ | h3
      · exact Or.inl (next_idle c1 c2 hl)
      · exact Or.inr (by omega)

/-- A flow instance reported its end if and only if it is not active. -/
theorem endings_iff (hr : Reachable env e) (hI : e.insts[i]? = some I) : endings I = 0 ↔ I.status = .active := by
  have hst : Eng.Stable (fun I => endings I = 0 ↔ I.status = .active) := by
    have push : ∀ {I : Inst} (s : FlowStatus), s = .completed ∨ s = .failed →
        (endings (I.setFlowStatus s) = 0 ↔ (I.setFlowStatus s).status = .active) := by
      intro I s hs
      rw [Sees.endings_status hs]
      constructor
      · intro h; omega
      · intro h
        have h : s = .active := h
        subst h
        rcases hs with h | h <;> cases h
    constructor
    · intro I I' hc h; rw [endings_flows hc.flows, hc.status]; exact h
    · intro o I I' hc h
      have he : endings I' = endings I := by unfold endings; rw [hc.posted]
      rw [he, hc.status]; exact h
    · intro d uri k h a; exact ⟨fun _ => rfl, fun _ => rfl⟩
    · intro I _; exact push _ (Or.inl rfl)
    · intro I _; exact push _ (Or.inr rfl)
    · intro I h _ _; exact h
    · intro I _ _ _; exact push _ (Or.inr rfl)
    · intro I err h _; exact h
  exact hst.reachable hr i I hI

/-- At rest, all flow instances are completed. -/
theorem tree_rest (hset : SettingsOk env) (hr : Reachable env e) (hcall : ∀ I ∈ e.insts, Calls I.defn.main) (hsm : Smooth e)
    (hst : e.stack = []) (hnx : Spec.next env e = none)
    (hw : ∀ I ∈ e.insts, ∀ t ∈ I.defn.main.tasks, (∀ uri, t.act ≠ .subflow uri) → ¬ HasStatus I t.id .waiting) :
    (∀ I ∈ e.insts, I.status = .completed ∧ ∀ t ∈ I.defn.main.tasks, Finished I t.id) ∧ e.queue = [] := by
  obtain ⟨id, uri, d, ins, n, rfl⟩ := hr
  have ok := engOK_run (env := env) id uri d ins n
  have hr : Reachable env (Eng.run env (Eng.init env id uri d ins) n) := ⟨id, uri, d, ins, n, rfl⟩
  have hlin := LInv.run hset id uri d ins n
  generalize Eng.run env (Eng.init env id uri d ins) n = e at *
  have hl : 0 < e.insts.length := by rw [← ok.ctr]; omega
  have hIS : ∀ (i : Nat) (I : Inst), e.insts[i]? = some I → ∃ G, IS I.defn.main (Single I.defn.main) (Fact env I.defn.main i) (Waits I.defn.main True) I (loadOf e i) G ∧ G.stk = [] := by
    intro i I hI
    have hm := List.mem_of_getElem? hI
    obtain ⟨G, h1, h2⟩ := hlin i I hI (hsm.1 I hm).1 (hsm.1 I hm).2 (Covered.scope (hcall I hm).covered) (Smooth.served ok hsm i)
    rw [hst, ite_self] at h2
    exact ⟨G, h1.mono fun u n hw => ⟨hw.1, hw.2.1, fun _ => hw.2.2 (Smooth.calmed hsm i)⟩, h2.nil_iff⟩
  have quiet : ∀ (i : Nat) (I : Inst), e.insts[i]? = some I → ∀ G, IS I.defn.main (Single I.defn.main) (Fact env I.defn.main i) (Waits I.defn.main True) I (loadOf e i) G →
      I.status = .completed → ∀ t, G.st t ≠ .ready ∧ G.st t ≠ .waiting := by
    intro i I hI G h hs t
    rcases (h.inv.comp2 (h.sim.compl.1.2 hs)).1 t with ho | ho
    · rcases open_iff.1 ho with hx | hx <;> rw [hx] <;> exact ⟨(fun hc => nomatch hc), (fun hc => nomatch hc)⟩
    · rcases fin_iff.1 ho with hx | hx | hx <;> rw [hx] <;> exact ⟨(fun hc => nomatch hc), (fun hc => nomatch hc)⟩
  -- nothing is left in the queue
  have hq : e.queue = [] := by
    obtain ⟨I0, hI0⟩ : ∃ I, e.insts[0]? = some I := ⟨_, List.getElem?_eq_getElem hl⟩
    obtain ⟨G0, h0, _⟩ := hIS 0 I0 hI0
    rcases h0.sim.compl.2 with hs | hs
    · -- the main flow is completed: so are all others
      have hall : ∀ (i : Nat) (I : Inst), e.insts[i]? = some I → I.status = .completed := by
        intro i
        induction i using Nat.strongRecOn with
        | ind i ih =>
          intro I hI
          by_cases hi : i = 0
          · subst hi; rw [hI0] at hI; cases hI; exact hs
          · obtain ⟨j, o, h1, h2, _⟩ := ok.hosts i I hI hi
            obtain ⟨J, hJ⟩ : ∃ J, e.insts[j]? = some J := ⟨_, List.getElem?_eq_getElem (by have := (List.getElem?_eq_some_iff.1 hI).1; omega)⟩
            obtain ⟨G, h3, _⟩ := hIS j J hJ
            have h4 := quiet j J hJ G h3 (ih j h2 J hJ)
            have h5 : loadOf e j o = 0 := by
              apply Decidable.byContradiction
              intro hc
              obtain ⟨t, ht⟩ := h3.cnt2 o hc
              rw [h3.cnt1 t o ht] at hc
              exact hc ((h3.inv.pend t).2.2 (h4 t).1 (h4 t).2)
            have h6 := (load_zero.1 h5).2
            unfold liveOf at h6
            rw [List.countP_eq_zero] at h6
            have h7 : endings I ≠ 0 := fun hc => h6 I (List.mem_of_getElem? hI) (decide_eq_true ⟨h1, hc⟩)
            obtain ⟨G', h8, _⟩ := hIS i I hI
            exact h8.sim.compl.2.resolve_right fun hc => h7 ((endings_iff hr hI).2 hc)
      apply List.eq_nil_iff_forall_not_mem.2
      intro w hwq
      have hwl := Readied.lt (ok.queue w hwq)
      obtain ⟨I, hI⟩ : ∃ I, e.insts[w.inst]? = some I := ⟨_, List.getElem?_eq_getElem hwl⟩
      obtain ⟨G, h1, _⟩ := hIS _ I hI
      exact h1.items (quiet _ I hI G h1 (hall _ I hI)) w hwq rfl
    · apply Decidable.byContradiction
      intro hq
      unfold Spec.next at hnx
      rw [if_pos ⟨hst, by unfold flowStatus; rw [hI0]; simp [hs]⟩, List.getElem?_eq_getElem (Nat.mod_lt _ (List.length_pos_iff.2 hq))] at hnx
      cases hnx
  -- all instances, the innermost first
  refine ⟨?_, hq⟩
  have key : ∀ (m i : Nat) (I : Inst), e.insts.length ≤ i + m → e.insts[i]? = some I → I.status = .completed ∧ ∀ t ∈ I.defn.main.tasks, Finished I t.id := by
    intro m
    induction m with
    | zero =>
      intro i I hm hI
      have := (List.getElem?_eq_some_iff.1 hI).1
      omega
    | succ m ih =>
      intro i I hm hI
      have hmem := List.mem_of_getElem? hI
      obtain ⟨G, h, hstk⟩ := hIS i I hI
      have hnq : ∀ w ∈ e.queue, w.inst ≠ i := by rw [hq]; exact fun _ hc => nomatch hc
      have hsub : ∀ J ∈ e.insts, ∀ o, J.host = some (i, o) → endings J ≠ 0 := by
        intro J hJ o ho
        obtain ⟨j, hj⟩ := List.getElem?_of_mem hJ
        have hj0 : j ≠ 0 := fun hc => by
          subst hc
          rw [ok.host0 J hj] at ho; cases ho
        obtain ⟨a, b, h1, h2, _⟩ := ok.hosts j J hj hj0
        rw [ho] at h1; cases h1
        have := (ih j J (by omega) hj).1
        exact fun hc => by rw [(endings_iff hr hj).1 hc] at this; cases this
      have hnowait : ∀ t, G.st t ≠ .waiting := by
        intro t hwt
        obtain ⟨td, h1, h2⟩ := h.inv.dom t (by rw [hwt]; exact fun hc => nomatch hc)
        by_cases hs : td.act.sub? = none
        · refine hw I hmem td h1 (fun uri ha => by rw [ha] at hs; cases hs) ?_
          rw [h2]
          exact (h.hasStatus (s := .waiting) (fun hc => nomatch hc)).2 hwt
        · exact h.no_subs hnq hsub ⟨td, h1, h2, hs⟩ hwt
      have hfin := h.inv.quiet (hcall I hmem).covered.wf (hcall I hmem).covered.acyclic hstk fun t => ⟨h.no_items hnq t, hnowait t⟩
      exact ⟨(h.sim.compl.1).1 (h.inv.comp1 hfin (hcall I hmem).nonempty), fun t ht => (h.finished _).2 (hfin t ht)⟩
  intro I hI
  obtain ⟨i, hi⟩ := List.getElem?_of_mem hI
  exact key e.insts.length i I (by omega) hi

end Flow.GraphM
