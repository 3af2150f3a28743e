import Verif.Proofs.GraphStart
import Verif.Proofs.Quiet

/-
What a flow instance notices of the steps of other flow instances: its subflows hand over results and put it to work.
-/

namespace Flow.GraphM
open Spec Eng

/-- The number of subflows called by task object `o` of instance `i` whose end was not reported yet. -/
def liveOf (e : Eng) (i o : Nat) : Nat := e.insts.countP (fun J => decide (J.host = some (i, o) ∧ endings J = 0))

/-- The instances agree except for outputs and return errors of task objects. -/
structure Like (I I' : Inst) : Prop where
  eq : I' = { I with objs := I'.objs }
  len : I'.objs.length = I.objs.length
  core : ∀ p : Nat, (I'.objs[p]?).map (fun x : Obj => (x.task, x.status)) = (I.objs[p]?).map (fun x : Obj => (x.task, x.status))

theorem Like.refl (I : Inst) : Like I I := ⟨rfl, rfl, fun _ => rfl⟩

theorem Like.trans {I J K : Inst} (h : Like I J) (g : Like J K) : Like I K := by
  refine ⟨?_, g.len.trans h.len, fun p => (g.core p).trans (h.core p)⟩
  have h1 := g.eq
  rw [h.eq] at h1
  exact h1

theorem Like.modO (I : Inst) (o : Nat) (f : Obj → Obj) (hf : ∀ x, (f x).task = x.task ∧ (f x).status = x.status) : Like I (I.modO o f) := by
  refine ⟨rfl, List.length_modify .., fun p => ?_⟩
  show ((I.objs.modify o f)[p]?).map _ = _
  rw [List.getElem?_modify]
  split
  · cases I.objs[p]? with
    | none => rfl
    | some ob => simp [(hf ob).1, (hf ob).2]
  · simp

/-- The change of an instance as far as others are concerned. -/
structure Aged (K K' : Inst) : Prop where
  host : K'.host = K.host
  ends : endings K ≤ endings K'
  eh : .ehStart ∈ K.trace → .ehStart ∈ K'.trace
  handling : K.handling = true → K'.handling = true

theorem Aged.refl (K : Inst) : Aged K K := ⟨rfl, Nat.le_refl _, id, id⟩

theorem Aged.trans {I J K : Inst} (h : Aged I J) (g : Aged J K) : Aged I K :=
  ⟨g.host.trans h.host, Nat.le_trans h.ends g.ends, fun x => g.eh (h.eh x), fun x => g.handling (h.handling x)⟩

/-- The change does not concern the end of the flow. -/
structure Mild (K K' : Inst) : Prop where
  aged : Aged K K'
  ends : endings K' = endings K

theorem endings_flows {I I' : Inst} (h : I'.posted.filter Post.isFlow = I.posted.filter Post.isFlow) : endings I' = endings I := by
  have key : ∀ l : List Post, l.countP isEnd = (l.filter Post.isFlow).countP isEnd := by
    intro l
    rw [List.countP_filter]
    apply List.countP_congr
    intro x _
    cases x with
    | flow s err => simp [Post.isFlow]
    | task => simp [isEnd]
  unfold endings
  rw [key, h, ← key]

theorem Mild.calm {I I' : Inst} (h : Calm I I') : Mild I I' := by
  have he := endings_flows h.flows
  refine ⟨⟨h.host, by omega, fun hm => ?_, fun hx => h.handling.trans hx⟩, he⟩
  have : .ehStart ∈ I'.trace.filter isLoud := by rw [h.loud]; exact List.mem_filter.2 ⟨hm, rfl⟩
  exact (List.mem_filter.1 this).1

theorem Mild.same {o : Nat} {I I' : Inst} (h : SameInst o I I') : Mild I I' := by
  have he : endings I' = endings I := by unfold endings; rw [h.posted]
  refine ⟨⟨h.host, by omega, fun hm => ?_, fun hx => h.handling.trans hx⟩, he⟩
  obtain ⟨evs, h1, _⟩ := h.trace
  rw [h1]; exact List.mem_append_right _ hm

/-- A change that only concerns other fields. -/
theorem Mild.of {I I' : Inst} (h1 : I'.host = I.host) (h2 : I'.posted = I.posted) (h3 : .ehStart ∈ I.trace → .ehStart ∈ I'.trace)
    (h4 : I.handling = true → I'.handling = true) : Mild I I' :=
  have he : endings I' = endings I := by unfold endings; rw [h2]
  ⟨⟨h1, by omega, h3, h4⟩, he⟩

theorem countP_modify_eq {α : Type} {l : List α} {n : Nat} {f : α → α} {p : α → Bool} (h : ∀ a, l[n]? = some a → p (f a) = p a) :
    (l.modify n f).countP p = l.countP p := by
  induction l generalizing n with
  | nil => simp
  | cons x xs ih =>
    cases n with
    | zero => simp only [List.modify_zero_cons, List.countP_cons]; rw [h x (by simp)]
    | succ n => simp only [List.modify_succ_cons, List.countP_cons]; rw [ih (fun a ha => h a (by simpa using ha))]

theorem countP_modify_le {α : Type} {l : List α} {n : Nat} {f : α → α} {p : α → Bool} (h : ∀ a, l[n]? = some a → p (f a) = true → p a = true) :
    (l.modify n f).countP p ≤ l.countP p := by
  induction l generalizing n with
  | nil => simp
  | cons x xs ih =>
    cases n with
    | zero =>
      simp only [List.modify_zero_cons, List.countP_cons]
      have := h x (by simp)
      split
      · rename_i hx; rw [if_pos (this hx)]; exact Nat.le_refl _
      · split <;> omega
    | succ n =>
      simp only [List.modify_succ_cons, List.countP_cons]
      have := ih (n := n) (fun a ha => h a (by simpa using ha))
      omega

theorem countP_modify_dec {α : Type} {l : List α} {n : Nat} {f : α → α} {p : α → Bool} {a : α} (ha : l[n]? = some a) (h1 : p a = true)
    (h2 : p (f a) = false) : (l.modify n f).countP p + 1 = l.countP p := by
  induction l generalizing n with
  | nil => simp at ha
  | cons x xs ih =>
    cases n with
    | zero =>
      simp only [List.getElem?_cons_zero, Option.some.injEq] at ha
      subst ha
      simp [h1, h2]
    | succ n =>
      simp only [List.modify_succ_cons, List.countP_cons]
      have := ih (n := n) (by simpa using ha)
      omega

/-- What instance `i` notices of a step of another instance. -/
structure Sees (i : Nat) (e e' : Eng) : Prop where
  ext : ∀ (k : Nat) (K : Inst), e.insts[k]? = some K → ∃ K', e'.insts[k]? = some K' ∧ Aged K K'
  inst : (i = 0 → ∀ J ∈ e'.insts, .ehStart ∉ J.trace) → ∀ I, e.insts[i]? = some I → ∃ I', e'.insts[i]? = some I' ∧ Like I I'
  cnt : ∀ o, cntOf e i o ≤ cntOf e' i o
  live : ∀ o, liveOf e' i o ≤ liveOf e i o
  bal : EndsOnce e' i → ∀ o, cntOf e' i o + liveOf e' i o ≤ cntOf e i o + liveOf e i o
  full : EndsOnce e' i → (∀ J ∈ e'.insts, ∀ o, J.host = some (i, o) → J.handling = false) →
    ∀ o, cntOf e' i o + liveOf e' i o = cntOf e i o + liveOf e i o
  ctl : (e'.stack = e.stack ∧ e'.cur = e.cur) ∨ e'.cur ≠ i

namespace Sees

variable {env : Env} {i j o : Nat} {e e' : Eng}

/-- An instance is still there later. -/
theorem mem (h : ∀ (k : Nat) (K : Inst), e.insts[k]? = some K → ∃ K', e'.insts[k]? = some K' ∧ Aged K K') {J : Inst} (hJ : J ∈ e.insts) :
    ∃ J' ∈ e'.insts, Aged J J' := by
  obtain ⟨k, hk⟩ := List.getElem?_of_mem hJ
  obtain ⟨J', h1, h2⟩ := h k J hk
  exact ⟨J', List.mem_of_getElem? h1, h2⟩

theorem endsOnce (h : ∀ (k : Nat) (K : Inst), e.insts[k]? = some K → ∃ K', e'.insts[k]? = some K' ∧ Aged K K') (he : EndsOnce e' i) : EndsOnce e i := by
  intro J hJ o ho
  obtain ⟨J', h1, h2⟩ := mem h hJ
  exact Nat.le_trans h2.ends (he J' h1 o (h2.host.trans ho))

theorem refl (e : Eng) : Sees i e e :=
  ⟨fun _ K hK => ⟨K, hK, .refl K⟩, fun _ I hI => ⟨I, hI, .refl I⟩, fun _ => Nat.le_refl _, fun _ => Nat.le_refl _, fun _ _ => Nat.le_refl _,
    fun _ _ _ => rfl, Or.inl ⟨rfl, rfl⟩⟩

theorem trans {f : Eng} (h : Sees i e e') (g : Sees i e' f) : Sees i e f := by
  refine ⟨fun k K hK => ?_, fun hc I hI => ?_, fun o => Nat.le_trans (h.cnt o) (g.cnt o), fun o => Nat.le_trans (g.live o) (h.live o),
    fun he o => ?_, fun he hh o => ?_, ?_⟩
  · obtain ⟨K1, h1, h2⟩ := h.ext k K hK
    obtain ⟨K2, h3, h4⟩ := g.ext k K1 h1
    exact ⟨K2, h3, h2.trans h4⟩
  · obtain ⟨I1, h1, h2⟩ := h.inst (fun h0 J hJ hm => by
      obtain ⟨J', h3, h4⟩ := mem g.ext hJ
      exact hc h0 J' h3 (h4.eh hm)) I hI
    obtain ⟨I2, h3, h4⟩ := g.inst hc I1 h1
    exact ⟨I2, h3, h2.trans h4⟩
  · exact Nat.le_trans (g.bal he o) (h.bal (endsOnce g.ext he) o)
  · refine (g.full he hh o).trans (h.full (endsOnce g.ext he) (fun J hJ o ho => ?_) o)
    obtain ⟨J', h3, h4⟩ := mem g.ext hJ
    cases hx : J.handling with
    | false => rfl
    | true => exact absurd (h4.handling hx) (by rw [hh J' h3 o (h4.host.trans ho)]; exact Bool.false_ne_true)
  · rcases g.ctl with ⟨h1, h2⟩ | h1
    · rcases h.ctl with ⟨h3, h4⟩ | h3
      · exact Or.inl ⟨h1.trans h3, h2.trans h4⟩
      · exact Or.inr (by rw [h2]; exact h3)
    · exact Or.inr h1

theorem ctrl (hi : e'.insts = e.insts) (hq : e'.queue = e.queue) (hc : (e'.stack = e.stack ∧ e'.cur = e.cur) ∨ e'.cur ≠ i) : Sees i e e' := by
  have h1 : ∀ o, cntOf e' i o = cntOf e i o := fun o => by unfold cntOf; rw [hq]
  have h2 : ∀ o, liveOf e' i o = liveOf e i o := fun o => by unfold liveOf; rw [hi]
  exact ⟨fun k K hK => ⟨K, by rw [hi]; exact hK, .refl K⟩, fun _ I hI => ⟨I, by rw [hi]; exact hI, .refl I⟩, fun o => by rw [h1]; exact Nat.le_refl _,
    fun o => by rw [h2]; exact Nat.le_refl _, fun _ o => by rw [h1, h2]; exact Nat.le_refl _, fun _ _ o => by rw [h1, h2], hc⟩

theorem aged_modI {f : Inst → Inst} (h : ∀ J, e.insts[j]? = some J → Aged J (f J)) :
    ∀ (k : Nat) (K : Inst), e.insts[k]? = some K → ∃ K', (e.modI j f).insts[k]? = some K' ∧ Aged K K' := by
  intro k K hK
  rw [modI_getElem?]
  split
  · rename_i hk; subst hk; exact ⟨f K, by rw [hK]; rfl, h K hK⟩
  · exact ⟨K, hK, .refl K⟩

/-- A change of another instance that does not concern its end. -/
theorem modI {f : Inst → Inst} (hj : j ≠ i) (h : ∀ J, e.insts[j]? = some J → Mild J (f J)) : Sees i e (e.modI j f) := by
  have hl : ∀ o, liveOf (e.modI j f) i o = liveOf e i o := fun o =>
    countP_modify_eq fun J hJ => by rw [(h J hJ).ends, (h J hJ).aged.host]
  exact ⟨aged_modI fun J hJ => (h J hJ).aged, fun _ I hI => ⟨I, by rw [modI_ne hj]; exact hI, .refl I⟩, fun _ => Nat.le_refl _,
    fun o => by rw [hl]; exact Nat.le_refl _, fun _ o => by rw [hl]; exact Nat.le_refl _, fun _ _ o => by rw [hl]; rfl, Or.inl ⟨rfl, rfl⟩⟩

theorem calm {f : Inst → Inst} (hj : j ≠ i) (h : ∀ J, e.insts[j]? = some J → Calm J (f J)) : Sees i e (e.modI j f) :=
  modI hj fun J hJ => .calm (h J hJ)

theorem schedule (hj : j ≠ i) (o : Nat) : Sees i e (e.schedule j o) := by
  have h1 : ∀ p, cntOf (e.schedule j o) i p = cntOf e i p := by
    intro p
    unfold cntOf Eng.schedule
    rw [List.countP_append]
    simp [hj]
  exact ⟨fun k K hK => ⟨K, hK, .refl K⟩, fun _ I hI => ⟨I, hI, .refl I⟩, fun o => by rw [h1]; exact Nat.le_refl _,
    fun o => Nat.le_refl _, fun _ o => by rw [h1]; exact Nat.le_refl _, fun _ _ o => by rw [h1]; rfl, Or.inl ⟨rfl, rfl⟩⟩

theorem aged_status {J : Inst} (s : FlowStatus) : Aged J (J.setFlowStatus s) :=
  ⟨rfl, by unfold endings; show _ ≤ (_ :: _).countP _; rw [List.countP_cons]; omega, fun h => List.mem_cons_of_mem _ h, id⟩

theorem endings_status {J : Inst} {s : FlowStatus} (hs : s = .completed ∨ s = .failed) : endings (J.setFlowStatus s) = endings J + 1 := by
  unfold endings
  show (_ :: _).countP _ = _
  rw [List.countP_cons_of_pos]
  rcases hs with rfl | rfl <;> rfl

/-- A flow instance that handles an error is reported failed; nobody is told. -/
theorem failedQuietly (hj : j ≠ i) (h : ∀ J, e.insts[j]? = some J → J.handling = true ∨ ∀ o, J.host ≠ some (i, o)) :
    Sees i e (e.modI j (fun J => J.setFlowStatus .failed)) := by
  have hle : ∀ o, liveOf (e.modI j (fun J => J.setFlowStatus .failed)) i o ≤ liveOf e i o := fun o =>
    countP_modify_le fun J hJ hp => by
      have hp := of_decide_eq_true hp
      rw [endings_status (Or.inr rfl)] at hp
      omega
  refine ⟨aged_modI fun J _ => aged_status _, fun _ I hI => ⟨I, by rw [modI_ne hj]; exact hI, .refl I⟩, fun _ => Nat.le_refl _,
    hle, fun _ o => ?_, fun _ hh o => ?_, Or.inl ⟨rfl, rfl⟩⟩
  · have := hle o
    show cntOf e i o + _ ≤ _
    omega
  · have : liveOf (e.modI j (fun J => J.setFlowStatus .failed)) i o = liveOf e i o := by
      refine countP_modify_eq fun J hJ => ?_
      have hn : J.host ≠ some (i, o) := by
        rcases h J hJ with h1 | h1
        · intro hc
          have := hh (J.setFlowStatus .failed) (List.mem_of_getElem? (modI_self hJ _)) o hc
          have : J.handling = false := this
          rw [h1] at this; cases this
        · exact h1 o
      rw [decide_eq_false (fun hx => hn hx.1), decide_eq_false (fun hx => hn hx.1)]
    rw [this]; rfl

/-- A subflow ends and hands its result over. -/
theorem handOver {s : FlowStatus} (hs : s = .completed ∨ s = .failed) {J : Inst} (hj : j ≠ i) (hJ : e.insts[j]? = some J) {hi ho : Nat}
    (hh : J.host = some (hi, ho)) {f : Obj → Obj} (hf : ∀ x, (f x).task = x.task ∧ (f x).status = x.status) :
    Sees i e (((e.modI j (fun J => J.setFlowStatus s)).modI hi (fun H => H.modO ho f)).schedule hi ho) := by
  have hm : ∀ (e : Eng) (k : Nat) (K : Inst), e.insts[k]? = some K → Mild K (K.modO ho f) := fun _ _ _ _ => .of rfl rfl id id
  by_cases hii : hi = i
  · subst hii
    have hlive : ∀ o, liveOf (((e.modI j (fun J => J.setFlowStatus s)).modI hi (fun H => H.modO ho f)).schedule hi ho) hi o =
        liveOf (e.modI j (fun J => J.setFlowStatus s)) hi o := by
      intro o
      exact countP_modify_eq fun K hK => rfl
    have hcnt : ∀ o, cntOf (((e.modI j (fun J => J.setFlowStatus s)).modI hi (fun H => H.modO ho f)).schedule hi ho) hi o =
        upd (cntOf e hi) ho (cntOf e hi ho + 1) o := by
      intro o; rw [cntOf_schedule]; rfl
    have hle : ∀ o, liveOf (e.modI j (fun J => J.setFlowStatus s)) hi o ≤ liveOf e hi o := fun o =>
      countP_modify_le fun K hK hp => by
        have hp := of_decide_eq_true hp
        rw [endings_status hs] at hp
        omega
    have hext : ∀ (k : Nat) (K : Inst), e.insts[k]? = some K →
        ∃ K', (((e.modI j (fun J => J.setFlowStatus s)).modI hi (fun H => H.modO ho f)).schedule hi ho).insts[k]? = some K' ∧ Aged K K' := by
      intro k K hK
      obtain ⟨K1, h1, h2⟩ := aged_modI (fun J _ => aged_status (J := J) s) k K hK
      obtain ⟨K2, h3, h4⟩ := aged_modI (fun K hK => (hm _ hi K hK).aged) k K1 h1
      exact ⟨K2, h3, h2.trans h4⟩
    have hfull : EndsOnce (((e.modI j (fun J => J.setFlowStatus s)).modI hi (fun H => H.modO ho f)).schedule hi ho) hi → ∀ o,
        cntOf (((e.modI j (fun J => J.setFlowStatus s)).modI hi (fun H => H.modO ho f)).schedule hi ho) hi o +
        liveOf (((e.modI j (fun J => J.setFlowStatus s)).modI hi (fun H => H.modO ho f)).schedule hi ho) hi o = cntOf e hi o + liveOf e hi o := by
      intro he o
      rw [hcnt, hlive]
      by_cases hoo : o = ho
      · subst hoo
        rw [upd_self]
        have h0 : endings J = 0 := by
          have h1 : (((e.modI j (fun J => J.setFlowStatus s)).modI hi (fun H => H.modO o f)).schedule hi o).insts[j]? = some (J.setFlowStatus s) := by
            show ((e.modI j (fun J => J.setFlowStatus s)).modI hi (fun H => H.modO o f)).insts[j]? = _
            rw [modI_ne (Ne.symm hj)]; exact modI_self hJ _
          have := he _ (List.mem_of_getElem? h1) o hh
          rw [endings_status hs] at this
          omega
        have := countP_modify_dec (f := fun J => J.setFlowStatus s) (p := fun J => decide (J.host = some (hi, o) ∧ endings J = 0)) hJ
          (decide_eq_true ⟨hh, h0⟩) (decide_eq_false fun hx => by
            have := hx.2
            rw [endings_status hs] at this; omega)
        have this : liveOf (e.modI j (fun J => J.setFlowStatus s)) hi o + 1 = liveOf e hi o := this
        omega
      · rw [upd_ne _ _ hoo]
        have : liveOf (e.modI j (fun J => J.setFlowStatus s)) hi o = liveOf e hi o := by
          refine countP_modify_eq fun K hK => ?_
          rw [hJ] at hK; cases hK
          have hn : J.host ≠ some (hi, o) := by
            rw [hh]; intro hc
            rw [Option.some.injEq, Prod.mk.injEq] at hc
            exact hoo hc.2.symm
          rw [decide_eq_false (fun hx => hn hx.1), decide_eq_false (fun hx => hn hx.1)]
        omega
    refine ⟨hext, fun _ I hI => ⟨I.modO ho f, ?_, .modO I ho f hf⟩, fun o => ?_, fun o => by rw [hlive]; exact hle o, fun he o => Nat.le_of_eq (hfull he o),
      fun he _ => hfull he, Or.inl ⟨rfl, rfl⟩⟩
    · show ((e.modI j (fun J => J.setFlowStatus s)).modI hi (fun H => H.modO ho f)).insts[hi]? = _
      exact modI_self (by rw [modI_ne hj]; exact hI) _
    · rw [hcnt]
      by_cases hoo : o = ho
      · subst hoo; rw [upd_self]; omega
      · rw [upd_ne _ _ hoo]; exact Nat.le_refl _
  · have hn : ∀ o, J.host ≠ some (i, o) := by
      intro o hc
      rw [hh, Option.some.injEq, Prod.mk.injEq] at hc
      exact hii hc.1
    have h1 : Sees i e (e.modI j (fun J => J.setFlowStatus s)) := by
      have hl : ∀ o, liveOf (e.modI j (fun J => J.setFlowStatus s)) i o = liveOf e i o := fun o =>
        countP_modify_eq fun K hK => by
          rw [hJ] at hK; cases hK
          rw [decide_eq_false (fun hx => hn o hx.1), decide_eq_false (fun hx => hn o hx.1)]
      exact ⟨aged_modI fun J _ => aged_status _, fun _ I hI => ⟨I, by rw [modI_ne hj]; exact hI, .refl I⟩, fun _ => Nat.le_refl _,
        fun o => by rw [hl]; exact Nat.le_refl _, fun _ o => by rw [hl]; exact Nat.le_refl _, fun _ _ o => by rw [hl]; rfl, Or.inl ⟨rfl, rfl⟩⟩
    exact (h1.trans (modI hii (hm _ hi))).trans (schedule hii ho)

/-- The end of a flow instance that is not hosted by `i`. -/
theorem unhosted {s : FlowStatus} {J : Inst} (hj : j ≠ i) (hJ : e.insts[j]? = some J) (hn : ∀ o, J.host ≠ some (i, o)) :
    Sees i e (e.modI j (fun J => J.setFlowStatus s)) := by
  have hl : ∀ o, liveOf (e.modI j (fun J => J.setFlowStatus s)) i o = liveOf e i o := fun o =>
    countP_modify_eq fun K hK => by
      rw [hJ] at hK; cases hK
      rw [decide_eq_false (fun hx => hn o hx.1), decide_eq_false (fun hx => hn o hx.1)]
  exact ⟨aged_modI fun J _ => aged_status _, fun _ I hI => ⟨I, by rw [modI_ne hj]; exact hI, .refl I⟩, fun _ => Nat.le_refl _,
    fun o => by rw [hl]; exact Nat.le_refl _, fun _ o => by rw [hl]; exact Nat.le_refl _, fun _ _ o => by rw [hl]; rfl, Or.inl ⟨rfl, rfl⟩⟩

/-- There is a top-level instance without a host. -/
def Top (e : Eng) : Prop := ∃ I, e.insts[0]? = some I ∧ I.host = none

theorem top (h : Sees i e e') (ht : Top e) : Top e' := by
  obtain ⟨I, h1, h2⟩ := ht
  obtain ⟨I', h3, h4⟩ := h.ext 0 I h1
  exact ⟨I', h3, h4.host.trans h2⟩

theorem lt (h : Sees i e e') {k : Nat} (hk : k < e.insts.length) : k < e'.insts.length := by
  obtain ⟨I', h3, _⟩ := h.ext k _ (List.getElem?_eq_getElem hk)
  exact (List.getElem?_eq_some_iff.1 h3).1

theorem complete (e : Eng) (hj : j ≠ i) (ht : Top e) : Sees i e (e.complete j) := by
  unfold Eng.complete
  split
  · exact .refl _
  · rename_i J hJ
    dsimp only
    split
    · rename_i h0; subst h0
      obtain ⟨I, h1, h2⟩ := ht
      rw [hJ] at h1; cases h1
      exact unhosted hj hJ (fun o => by rw [h2]; exact fun h => nomatch h)
    · split
      · rename_i hh
        exact (unhosted hj hJ (fun o => by rw [hh]; exact fun h => nomatch h)).trans (.ctrl rfl rfl (Or.inl ⟨rfl, rfl⟩))
      · rename_i hi ho hh
        exact (handOver (Or.inl rfl) hj hJ hh (f := fun x => { x with outputs := J.returnData, returnError := none }) (fun _ => ⟨rfl, rfl⟩)).trans
          (.ctrl rfl rfl (Or.inl ⟨rfl, rfl⟩))

/-- A subflow fails and hands the error over. -/
theorem fail (e : Eng) (hj : j ≠ i) (err : Err) : Sees i e ((e.modI j (fun J => J.setFlowStatus .failed)).failHost j err) := by
  unfold Eng.failHost
  split
  · rename_i hn
    have : e.insts[j]? = none := by
      rw [modI_getElem?, if_pos rfl] at hn
      exact Option.map_eq_none_iff.1 hn
    exact modI hj fun J hJ => by rw [this] at hJ; cases hJ
  · rename_i J' hJ'
    obtain ⟨J, hJ, h2⟩ : ∃ J, e.insts[j]? = some J ∧ J.setFlowStatus .failed = J' := by
      rw [modI_getElem?, if_pos rfl] at hJ'
      exact Option.map_eq_some_iff.1 hJ'
    subst h2
    split
    · rename_i hh
      exact unhosted hj hJ (fun o => by
        have hh : J.host = none := hh
        rw [hh]; exact fun h => nomatch h)
    · rename_i hi ho hh
      exact handOver (Or.inr rfl) hj hJ hh (f := fun x => { x with returnError := some err }) (fun _ => ⟨rfl, rfl⟩)

theorem enterStart (es : List TaskEntry) (e : Eng) (hj : j ≠ i) : Sees i e (enterStart env e j es) := by
  induction es generalizing e with
  | nil => exact .refl _
  | cons x xs ih =>
    unfold Eng.enterStart
    split
    · exact .refl _
    · rename_i I hI
      have hm : Sees i e (e.modI j (fun _ => (I.enterTask x.task).1)) :=
        calm hj (fun J hJ => by rw [hI] at hJ; cases hJ; exact Calm.enterTask I x.task)
      dsimp only
      split
      · split
        · exact (hm.trans (schedule hj _)).trans (ih _)
        · exact hm
      · exact hm.trans (ih _)

theorem startInstance (e : Eng) (ins : AMap String Val) (hj : j ≠ i) : Sees i e (startInstance env e j ins) := by
  unfold Eng.startInstance
  split
  · exact .refl _
  · rename_i I hI
    refine Sees.trans (modI (f := fun _ => ({ I with attrs := startAttrs env e I (e.parentOf I) ins } : Inst).setFlowStatus .active) hj (fun J hJ => ?_)) (enterStart _ _ hj)
    rw [hI] at hJ; cases hJ
    exact ⟨⟨rfl, Nat.le_refl _, fun h => List.mem_cons_of_mem _ h, fun h => h⟩, rfl⟩

theorem newEmbedded (e : Eng) (o : Nat) (uri : String) (d : Def) (hj : j ≠ i) : Sees i e (e.newEmbedded j o uri d) := by
  have hl : ∀ p, liveOf (e.newEmbedded j o uri d) i p = liveOf e i p := by
    intro p
    unfold liveOf Eng.newEmbedded
    rw [List.countP_append]
    simp [hj]
  have hg : ∀ (k : Nat) (K : Inst), e.insts[k]? = some K → (e.newEmbedded j o uri d).insts[k]? = some K := fun k K hK => by
    rw [newEmbedded_getElem? _ _ _ _ _ (List.getElem?_eq_some_iff.1 hK).1]; exact hK
  exact ⟨fun k K hK => ⟨K, hg k K hK, .refl K⟩, fun _ I hI => ⟨I, hg i I hI, .refl I⟩, fun _ => Nat.le_refl _,
    fun o => by rw [hl]; exact Nat.le_refl _, fun _ o => by rw [hl]; exact Nat.le_refl _, fun _ _ o => by rw [hl]; rfl, Or.inl ⟨rfl, rfl⟩⟩

theorem evals {s : Option String} (h : Evals env j o s e e') (hj : j ≠ i) (hi : i < e.insts.length) : Sees i e e' := by
  induction h with
  | refl e => exact .refl e
  | inst e f h => exact modI hj (fun I hI => .same (h I hI))
  | reply e r => exact .ctrl rfl rfl (Or.inl ⟨rfl, rfl⟩)
  | sub e uri d inputs _ _ _ => exact (newEmbedded e o uri d hj).trans (startInstance _ _ (Nat.ne_of_gt hi))
  | trans _ _ ih1 ih2 =>
    have h1 := ih1 hi
    exact h1.trans (ih2 (h1.lt hi))

theorem setStatus (e : Eng) (o : Nat) (st : TaskStatus) (hj : j ≠ i) : Sees i e (e.setStatus j o st) :=
  calm hj (fun I _ => Calm.setTaskStatus I o st)

theorem appendErrorData (e : Eng) (t : TaskId) (err : Err) (hj : j ≠ i) : Sees i e (e.appendErrorData j t err) :=
  modI hj (fun _ _ => .of rfl rfl id id)

/-- The error handler of an instance is started. -/
theorem handler (e : Eng) {J : Inst} (hJ : e.insts[j]? = some J) (hj : j ≠ i) (st : List Frame) :
    Sees i e { ((e.modI j (fun J => { J with handling := true })).modI 0 (fun J => J.clearTasks)).modI j
      (fun J => { J with trace := .ehStart :: J.trace }) with cur := j, stack := st } := by
  have m1 : ∀ J : Inst, Mild J { J with handling := true } := fun J => .of rfl rfl id (fun _ => rfl)
  have m2 : ∀ J : Inst, Mild J J.clearTasks := fun J => .of rfl rfl (fun h => List.mem_cons_of_mem _ h) id
  have m3 : ∀ J : Inst, Mild J { J with trace := .ehStart :: J.trace } := fun J => .of rfl rfl (fun h => List.mem_cons_of_mem _ h) id
  have mild : ∀ (e : Eng) (j : Nat) (f : Inst → Inst), (∀ J, Mild J (f J)) → ∀ o, liveOf (e.modI j f) i o = liveOf e i o := fun e j f h o =>
    countP_modify_eq fun J hJ => by rw [(h J).ends, (h J).aged.host]
  have hl : ∀ o, liveOf ({ ((e.modI j (fun J => { J with handling := true })).modI 0 (fun J => J.clearTasks)).modI j
      (fun J => { J with trace := .ehStart :: J.trace }) with cur := j, stack := st } : Eng) i o = liveOf e i o := fun o =>
    (mild _ _ _ m3 o).trans ((mild _ _ _ m2 o).trans (mild _ _ _ m1 o))
  refine ⟨fun k K hK => ?_, fun hc I hI => ?_, fun _ => Nat.le_refl _,
    fun o => by rw [hl]; exact Nat.le_refl _, fun _ o => by rw [hl]; exact Nat.le_refl _, fun _ _ o => by rw [hl]; rfl, Or.inr hj⟩
  · obtain ⟨K1, h1, a1⟩ := aged_modI (fun J _ => (m1 J).aged) k K hK
    obtain ⟨K2, h2, a2⟩ := aged_modI (fun J _ => (m2 J).aged) k K1 h1
    obtain ⟨K3, h3, a3⟩ := aged_modI (fun J _ => (m3 J).aged) k K2 h2
    exact ⟨K3, h3, (a1.trans a2).trans a3⟩
  · have h0 : i ≠ 0 := by
      intro h0
      obtain ⟨K1, h1, _⟩ := aged_modI (fun J _ => (m1 J).aged) j J hJ
      obtain ⟨K2, h2, _⟩ := aged_modI (fun J _ => (m2 J).aged) j K1 h1
      have h3 := modI_self h2 (fun J : Inst => { J with trace := .ehStart :: J.trace })
      exact hc h0 _ (List.mem_of_getElem? h3) (List.mem_cons_self ..)
    refine ⟨I, ?_, .refl I⟩
    show (((e.modI j _).modI 0 _).modI j _).insts[i]? = _
    rw [modI_ne hj, modI_ne (Ne.symm h0), modI_ne hj]; exact hI

theorem globalError (e : Eng) (err : Err) (hj : j ≠ i) (ht : Top e) : Sees i e (e.globalError j err) := by
  unfold Eng.globalError
  split
  · exact .refl _
  · rename_i J hJ
    split
    · rename_i hh
      exact failedQuietly hj fun K hK => by rw [hJ] at hK; cases hK; exact Or.inl hh
    · have h1 : Sees i e (e.modI j (fun J => { J with handling := true })) := modI hj (fun _ _ => .of rfl rfl id (fun _ => rfl))
      dsimp only
      split
      · exact handler e hJ hj _
      · split
        · rename_i h0; subst h0
          obtain ⟨I, h2, h3⟩ := ht
          rw [hJ] at h2; cases h2
          refine (h1.trans (unhosted hj (modI_self hJ _) (fun o => ?_))).trans (modI hj (fun _ _ => .of rfl rfl id id))
          show J.host ≠ _
          rw [h3]; exact fun h => nomatch h
        · exact h1.trans (fail _ hj err)

theorem taskError (e : Eng) (o : Nat) (t : TaskRef) (err : Err) (hj : j ≠ i) (ht : Top e) : Sees i e (e.taskError j o t err) := by
  unfold Eng.taskError
  split
  · exact .refl _
  · rename_i I hI
    have hc := Calm.errorTask I o t
    split
    · rename_i I1 es h1
      rw [h1] at hc
      refine (Sees.modI (f := fun _ => I1.setValue ("_E." ++ t.id) (errorObj t.id err)) hj (fun J hJ => ?_)).trans (.ctrl rfl rfl (Or.inr hj))
      rw [hI] at hJ; cases hJ
      have := Mild.calm hc
      exact ⟨⟨this.aged.host, this.aged.ends, this.aged.eh, this.aged.handling⟩, this.ends⟩
    · rename_i I1 h1
      rw [h1] at hc
      have hm : Sees i e (e.modI j (fun _ => I1)) := calm hj (fun J hJ => by rw [hI] at hJ; cases hJ; exact hc)
      dsimp only
      split
      · split
        · rename_i h0; subst h0
          obtain ⟨J, h2, h3⟩ := ht
          rw [hI] at h2; cases h2
          refine (hm.trans (unhosted hj (modI_self hI _) (fun o => ?_))).trans (appendErrorData _ _ _ hj)
          show I1.host ≠ _
          rw [show I1.host = I.host from hc.host, h3]; exact fun h => nomatch h
        · exact hm.trans (fail _ hj err)
      · have h2 := hm.trans (appendErrorData _ t.id err hj)
        exact h2.trans (globalError _ _ hj (h2.top ht))

theorem finishTask (e : Eng) (t : TaskRef) (n : Bool) (es : List TaskEntry) (rest : List Frame) (hj : j ≠ i) (ht : Top e) :
    Sees i e (e.finishTask j t n es rest) := by
  unfold Eng.finishTask
  split
  · exact .refl _
  · split
    · exact (complete e hj ht).trans (.ctrl rfl rfl (Or.inr hj))
    · exact .ctrl rfl rfl (Or.inr hj)

theorem taskDone (e : Eng) (o : Nat) (t : TaskRef) (hj : j ≠ i) (ht : Top e) : Sees i e (e.taskDone env j o t) := by
  unfold Eng.taskDone
  split
  · exact .refl _
  · rename_i I hI
    have hc := Calm.doneTask env.prio (env.link e j) I o t
    split
    · rename_i I1 m h1
      rw [h1] at hc
      have hm : Sees i e (e.modI j (fun _ => I1)) := calm hj (fun J hJ => by rw [hI] at hJ; cases hJ; exact hc)
      have h2 : ∀ err, Sees i e ((e.modI j (fun _ => I1)).appendErrorData j t.id err) := fun err => hm.trans (appendErrorData _ t.id err hj)
      exact (h2 _).trans (globalError _ _ hj ((h2 _).top ht))
    · rename_i I1 es h1
      rw [h1] at hc
      have hm : Sees i e (e.modI j (fun _ => I1)) := calm hj (fun J hJ => by rw [hI] at hJ; cases hJ; exact hc)
      exact hm.trans (finishTask _ _ _ _ _ hj (hm.top ht))

theorem taskSkipped (e : Eng) (o : Nat) (rest : List Frame) (hj : j ≠ i) (hr : e.cur ≠ i) (ht : Top e) : Sees i e (e.taskSkipped j o rest) := by
  unfold Eng.taskSkipped
  split
  · exact .refl _
  · rename_i I hI
    split
    · exact .ctrl rfl rfl (Or.inr hr)
    · rename_i ob _
      have hc := Calm.skipTask I o ob.task
      split
      rename_i I1 es h1
      rw [h1] at hc
      have hm : Sees i e (e.modI j (fun _ => I1)) := calm hj (fun J hJ => by rw [hI] at hJ; cases hJ; exact hc)
      exact hm.trans (finishTask _ _ _ _ _ hj (hm.top ht))

theorem handleResult (e : Eng) (o : Nat) (t : TaskRef) (name : String) (r : EvalOut) (hj : j ≠ i) (ht : Top e) :
    Sees i e (e.handleResult env j o t name r) := by
  unfold Eng.handleResult
  split
  · exact taskError _ _ _ _ hj ht
  · exact taskDone _ _ _ hj ht
  · exact taskDone _ _ _ hj ht
  · exact setStatus _ _ _ hj
  · exact setStatus _ _ _ hj
  · exact schedule hj _
  · split
    · exact .refl _
    · split
      · exact .refl _
      · exact (appendErrorData _ _ _ hj).trans (globalError _ _ hj (top (appendErrorData _ _ _ hj) ht))

theorem exec (e : Eng) (o : Nat) (hj : j ≠ i) (ht : Top e) (hi : i < e.insts.length) : Sees i e (e.exec env j o) := by
  cases h : outcome env e j o with
  | none => rw [exec_none h]; exact .refl _
  | some p =>
    obtain ⟨e', r⟩ := p
    cases ho : e.obj? j o with
    | none => unfold Spec.outcome at h; rw [ho] at h; cases h
    | some ob =>
      obtain ⟨td, _, h2⟩ := exec_outcome ho h
      rw [h2]
      obtain ⟨e1, hev, h1⟩ := outcome_evals h
      have h3 : Sees i e e' := by
        rcases h1 with h1 | ⟨st, h1⟩
        · subst h1; exact evals hev hj hi
        · subst h1; exact (evals hev hj hi).trans (setStatus _ _ _ hj)
      exact h3.trans (handleResult _ _ _ _ _ hj (h3.top ht))

theorem enterEntry (e : Eng) (x : TaskEntry) (xs : List TaskEntry) (rest : List Frame) (hj : e.cur ≠ i) (ht : Top e) :
    Sees i e (e.enterEntry env x xs rest) := by
  unfold Eng.enterEntry
  split
  · exact .ctrl rfl rfl (Or.inr hj)
  · rename_i I hI
    have hm : Sees i e (e.modI e.cur (fun _ => (I.enterTask x.task).1)) :=
      calm hj fun J hJ => by rw [hI] at hJ; cases hJ; exact Calm.enterTask _ _
    dsimp only
    split
    · exact hm.trans (.ctrl rfl rfl (Or.inr hj))
    · split
      · exact (hm.trans (schedule hj _)).trans (.ctrl rfl rfl (Or.inr hj))
      · exact hm.trans (.ctrl rfl rfl (Or.inr hj))
    · exact hm.trans (taskSkipped _ _ _ hj hj (hm.top ht))

theorem inner {e : Eng} (h : e.stack ≠ []) (hj : e.cur ≠ i) (ht : Top e) : Sees i e (e.step env) := by
  unfold Eng.step
  split
  · rename_i hs; exact absurd hs h
  · exact .ctrl rfl rfl (Or.inr hj)
  · exact enterEntry _ _ _ _ hj ht
  · exact (Sees.calm hj fun I _ => Calm.release I _).trans (.ctrl rfl rfl (Or.inr hj))

/-- A step of another instance. -/
theorem step {e : Eng} (ht : Top e) (hi : i < e.insts.length) (hc : e.stack = [] ∨ e.cur ≠ i) (hq : ∀ w, Spec.next env e = some w → w.inst ≠ i) :
    Sees i e (e.step env) := by
  cases h : Spec.next env e with
  | some w =>
    rw [step_next h]
    have h1 : Sees i e (afterPop env e w) := by
      have hcnt : ∀ o, cntOf (afterPop env e w) i o = cntOf e i o := fun o =>
        countP_eraseIdx (next_some h).2.2 (decide_eq_false fun hx => hq w h hx.1)
      exact ⟨fun k K hK => ⟨K, hK, .refl K⟩, fun _ I hI => ⟨I, hI, .refl I⟩, fun o => by rw [hcnt]; exact Nat.le_refl _,
        fun o => Nat.le_refl _, fun _ o => by rw [hcnt]; exact Nat.le_refl _, fun _ _ o => by rw [hcnt]; rfl, Or.inl ⟨rfl, rfl⟩⟩
    exact h1.trans (exec _ _ (hq w h) (h1.top ht) hi)
  | none =>
    by_cases hst : e.stack = []
    · rw [step_idle hst h (Nat.zero_lt_of_lt hi)]; exact .ctrl rfl rfl (Or.inl ⟨rfl, rfl⟩)
    · exact inner hst (hc.resolve_left hst) ht

end Sees

end Flow.GraphM
