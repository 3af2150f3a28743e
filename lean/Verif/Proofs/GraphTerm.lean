import Verif.Proofs.GraphUse

/-
Executions of the top-level flow come to rest.
-/

namespace Flow.GraphM
open Spec Eng

variable {env : Env} {g : Graph} {e : Eng} {I : Inst} {G : GS}

theorem Fin.settled {s : TaskStatus} (h : Fin s) : Settled s := by unfold Fin at h; unfold Settled; omega

/-- The number of tasks that are not settled. -/
def unsettled (g : Graph) (st : TaskId → TaskStatus) : Nat := g.tasks.countP fun t => decide (¬ Settled (st t.id))

theorem countP_lt {α : Type} {l : List α} {p q : α → Bool} (hm : ∀ x ∈ l, q x = true → p x = true) {a : α} (ha : a ∈ l) (h1 : p a = true)
    (h2 : q a = false) : l.countP q < l.countP p := by
  induction l with
  | nil => simp at ha
  | cons x xs ih =>
    have hle := List.countP_mono_left (l := xs) (p := q) (q := p) fun y hy => hm y (List.mem_cons_of_mem _ hy)
    rcases List.mem_cons.1 ha with rfl | ha
    · rw [List.countP_cons_of_pos h1, List.countP_cons_of_neg (by simp [h2])]; omega
    · have := ih (fun y hy => hm y (List.mem_cons_of_mem _ hy)) ha
      rw [List.countP_cons, List.countP_cons]
      have hx := hm x List.mem_cons_self
      by_cases hq : q x = true
      · rw [if_pos hq, if_pos (hx hq)]; omega
      · rw [if_neg hq]; split <;> omega

theorem unsettled_le {st st' : TaskId → TaskStatus} (h : ∀ t, Settled (st t) → Settled (st' t)) : unsettled g st' ≤ unsettled g st := by
  apply List.countP_mono_left
  intro td _ ht
  exact decide_eq_true fun hc => of_decide_eq_true ht (h td.id hc)

theorem unsettled_lt {st st' : TaskId → TaskStatus} (h : ∀ t, Settled (st t) → Settled (st' t)) {td : TaskDef} (htd : td ∈ g.tasks)
    (h1 : ¬ Settled (st td.id)) (h2 : Settled (st' td.id)) : unsettled g st' < unsettled g st :=
  countP_lt (fun _ _ ht => decide_eq_true fun hc => of_decide_eq_true ht (h _ hc)) htd (decide_eq_true h1) (decide_eq_false fun hc => hc h2)

/-- The number of steps that are still to be done, if no further round of a loop is executed. -/
def meas (g : Graph) (G : GS) (e : Eng) : Nat := unsettled g G.st * (g.links.length + 4) + ssize e.stack

/-- The invariant of the run after `n` steps. -/
def TInv (env : Env) (g : Graph) (e : Eng) (n k : Nat) : Prop :=
  ∀ I, e.insts[0]? = some I → Undisturbed I → ∃ G, NoHost e 0 ∧ IS g (Single g) (Fact env g 0) (Waits g True) I (loadOf e 0) G ∧ Frames (if e.cur = 0 then e.stack else []) G.stk ∧
    (e.stack = [] ∨ e.cur = 0) ∧ ((e.stack = [] ∧ Spec.next env e = none) ∨ meas g G e + n ≤ g.tasks.length * (g.links.length + 4) + k)

theorem mul_step {a b c : Nat} (h : a < b) : a * c + c ≤ b * c := by
  have := Nat.mul_le_mul_right c (Nat.succ_le_of_lt h)
  rw [Nat.succ_mul] at this
  exact this

theorem TInv.step (hset : SettingsOk env) (ok : EngOK e) (hc : Covered g) (hlf : Leaf g)
    (hnh : ∀ I', (e.step env).insts[0]? = some I' → Undisturbed I' → NoHost (e.step env) 0) {I0 : Inst} (hI0 : e.insts[0]? = some I0) (hd : I0.defn.main = g)
    {b : Bool} (hb : b = false → ∀ td ∈ g.tasks, td.kind = .basic) {n k : Nat} (h : TInv env g e n k) :
    TInv env g (e.step env) (n + 1) (k + (b && loopsBack env e).toNat) := by
  intro I' hI' hu'
  have hl : 0 < e.insts.length := by rw [← ok.ctr]; omega
  obtain ⟨I2, hI2, hx⟩ := (Good.step (env := env) e ok).2 0 I0 hI0
  rw [hI'] at hI2; cases hI2
  have hu : Undisturbed I0 := by
    constructor
    · cases hc : I0.handling with
      | false => rfl
      | true => exact absurd ((hx.handling hc).symm.trans hu'.1) (by simp)
    · cases hc : I0.force with
      | false => rfl
      | true => exact absurd ((hx.force hc).symm.trans hu'.2) (by simp)
  have hsub : ∀ t ∈ g.tasks, t.act.sub? = none := by
    intro t ht
    cases ha : t.act with
    | subflow uri => exact absurd ha (hlf t ht uri)
    | _ => rfl
  obtain ⟨G, hno, hIS, hfr, hcur, hm⟩ := h I0 hI0 hu
  have hhost : ∀ a o, I0.host = some (a, o) → a ≠ 0 := fun a o ha => hno 0 I0 a o hI0 ha
  have hno' : NoHost (e.step env) 0 := hnh I' hI' hu'
  have hal := alone ok hno
  cases hn : Spec.next env e with
  | some w =>
    have hst := (next_some hn).1
    have hw := List.mem_of_getElem? (next_some hn).2.2
    have hwl := Readied.lt (ok.queue w hw)
    have hw0 : w.inst = 0 := by omega
    have hstk : G.stk = [] := by
      rw [hst, ite_self] at hfr
      exact hfr.nil_iff
    have hnotsub : ∀ u, ¬ SubTask g u := by
      rintro u ⟨td, h1, _, h3⟩
      exact h3 (hsub td h1)
    obtain ⟨t, ht, hlive, hwt, hone, hpop⟩ := own_next hn (by rw [hw0]; exact hIS)
    rw [hw0] at hpop hone
    have hrd : G.st t = .ready := hlive.resolve_right fun hc => hnotsub t (hwt hc)
    have hpost := own_exec (e := afterPop env e w) hIS hc.wf hc.order (fun t ht hx => absurd (hsub t ht) hx) hstk ht hlive hwt waits_two hone hI0 hst hpop hu.1 hhost
    have hstep : e.step env = (afterPop env e w).exec env 0 w.obj := by rw [step_next hn, hw0]
    have hm : meas g G e + n ≤ g.tasks.length * (g.links.length + 4) + k := by
      rcases hm with hm | hm
      · rw [hn] at hm; exact absurd hm.2 (fun hc => nomatch hc)
      · exact hm
    unfold meas at hm
    rw [hst] at hm
    have hI'' := hI'
    rw [hstep] at hI''
    obtain ⟨G', a1, a2, a3⟩ := hpost I' hI'' hu'.1 hu'.2
    rw [← hstep] at a1 a2 a3
    obtain ⟨td, htd, hid⟩ := hIS.inv.dom t (by rw [hrd]; exact fun hx => nomatch hx)
    refine ⟨G', hno', a1, a2, ?_, Or.inr ?_⟩
    · rcases a3 with ⟨s, _, _, b1, _⟩ | ⟨_, b1, _⟩
      · exact b1
      · exact Or.inl b1
    · unfold meas
      rcases a3 with ⟨s, b1, b2, _, b3, _⟩ | ⟨b1, b2, _, ⟨td', h1', h2'⟩, ⟨e1, b3⟩, _⟩
      · have hlt := unsettled_lt (g := g) (st := G.st) (st' := G'.st) (fun u hu => by rw [b2]; exact settled_upd (Or.inr b1) hu) htd
          (by rw [hid, hrd]; simp [Settled, TaskStatus.code]) (by rw [hid, b2, upd_self]; exact b1)
        have := mul_step (c := g.links.length + 4) hlt
        simp only [ssize] at hm
        omega
      · have hlb : loopsBack env e = true := by
          unfold loopsBack
          rw [hn, Option.any_some, hw0, b3]
          rfl
        have hbt : b = true := by
          cases hbb : b with
          | true => rfl
          | false => exact absurd (hb hbb td' h1') h2'
        rw [b1, b2, hlb, hbt]
        simp only [ssize, Bool.toNat_true, Bool.and_self] at hm ⊢
        omega
  | none =>
    by_cases hst : e.stack = []
    · have hI0' : I' = I0 := by
        rw [step_idle hst hn hl] at hI'
        have hI' : e.insts[0]? = some I' := hI'
        rw [hI0] at hI'; cases hI'; rfl
      subst hI0'
      have hstep := step_idle hst hn hl
      refine ⟨G, hno', ?_, ?_, ?_, Or.inl ⟨?_, ?_⟩⟩
      · rw [hstep]; exact hIS
      · rw [hstep]; exact hfr
      · rw [hstep]; exact Or.inl hst
      · rw [hstep]; exact hst
      · rw [hstep]
        cases hn' : Spec.next env { e with stepID := e.stepID + 1 } with
        | none => rfl
        | some w =>
          exfalso
          obtain ⟨b1, b2, b3⟩ := next_some hn'
          have hq : e.queue ≠ [] := by
            intro hq
            have b3 : e.queue[_]? = some w := b3
            rw [hq] at b3; simp at b3
          have hpos := List.length_pos_iff.2 hq
          unfold Spec.next at hn
          rw [if_pos ⟨hst, b2⟩, List.getElem?_eq_getElem (Nat.mod_lt _ hpos)] at hn
          cases hn
    · have hc0 := hcur.resolve_left hst
      rw [if_pos hc0] at hfr
      obtain ⟨G', a1, a2, a3, a4, a5⟩ := own_inner hset hIS hc.wf hc.order hI0 hc0 hfr hst hu.2 hhost I' hI' hu'.1 hu'.2
      have hm : meas g G e + n ≤ g.tasks.length * (g.links.length + 4) + k := by
        rcases hm with hm | hm
        · exact absurd hm.1 hst
        · exact hm
      refine ⟨G', hno', a1, a2, Or.inr (a4.trans hc0), Or.inr ?_⟩
      unfold meas at hm ⊢
      rcases a5 with ⟨b1, _⟩ | ⟨td, b1, b2, b3, b4, _⟩
      · have := Nat.mul_le_mul_right (g.links.length + 4) (unsettled_le (g := g) a3.1)
        omega
      · have := mul_step (c := g.links.length + 4) (unsettled_lt a3.1 b1 b2 b3.settled)
        omega

theorem TInv.run (hset : SettingsOk env) {d : Def} (hc : Covered d.main) (hlf : Leaf d.main) (id uri : String) (ins : AMap String Val)
    {b : Bool} (hb : b = false → ∀ td ∈ d.main.tasks, td.kind = .basic) (n : Nat) :
    TInv env d.main (Eng.run env (Eng.init env id uri d ins) n) n (if b then loopRounds env (Eng.init env id uri d ins) n else 0) := by
  induction n with
  | zero =>
    intro I hI hu
    have hd := root_defn (n := 0) hI
    have hloc := covered_loc hset ⟨id, uri, d, ins, 0, rfl⟩ hI (by rw [hd]; exact hc) hu (by rw [hd]; exact Or.inl hlf)
    have hno := noHost_leaf hset id uri d ins 0 0 I hI hu (by rw [hd]; exact hc) (by rw [hd]; exact hlf)
    obtain ⟨G, h1, h2⟩ := hloc
    rw [hd] at h1
    have h1 : IS d.main (Single d.main) (Fact env d.main 0) (Waits d.main True) I (loadOf (Eng.init env id uri d ins) 0) G :=
      h1.mono fun t m hw => ⟨hw.1, hw.2.1, fun _ ⟨td, x1, _, x3⟩ => by
        cases ha : td.act with
        | subflow uri => exact absurd ha (hlf td x1 uri)
        | _ => rw [ha] at x3; exact absurd rfl x3⟩
    have hs : (Eng.init env id uri d ins).stack = [] := (StartFrame.startInstance (env := env) 0 (Eng.new id uri d) ins).stack
    refine ⟨G, hno, h1, h2, Or.inl hs, Or.inr ?_⟩
    unfold meas
    show _ + ssize (Eng.init env id uri d ins).stack + 0 ≤ _
    rw [hs]
    have := Nat.mul_le_mul_right (d.main.links.length + 4) (List.countP_le_length (p := fun t : TaskDef => decide (¬ Settled (G.st t.id))) (l := d.main.tasks))
    simp only [ssize, unsettled]
    omega
  | succ n ih =>
    obtain ⟨I0, hI0⟩ := root_exists (env := env) (id := id) (uri := uri) (d := d) (ins := ins) n
    have := TInv.step hset (engOK_run id uri d ins n) hc hlf (fun I' hI' hu' =>
      noHost_leaf hset id uri d ins (n + 1) 0 I' hI' hu' (by rw [root_defn (n := n + 1) hI']; exact hc) (by rw [root_defn (n := n + 1) hI']; exact hlf))
      hI0 (by rw [root_defn hI0]) hb ih
    have hk : loopRounds env (Eng.init env id uri d ins) (n + 1) =
        loopRounds env (Eng.init env id uri d ins) n + (loopsBack env (Eng.run env (Eng.init env id uri d ins) n)).toNat := by
      unfold loopRounds
      rw [List.range_succ, List.countP_append, List.countP_singleton]
      cases loopsBack env (Eng.run env (Eng.init env id uri d ins) n) <;> rfl
    cases b with
    | true => rw [if_pos rfl, hk]; exact this
    | false => exact this

/-- The end of the run. -/
theorem at_rest {d : Def} (hc : Covered d.main) (hne : d.main.tasks ≠ []) (id uri : String) (ins : AMap String Val) {n k : Nat}
    (h : TInv env d.main (Eng.run env (Eng.init env id uri d ins) n) n k) (hn : d.main.tasks.length * (d.main.links.length + 4) + k < n)
    (hI : (Eng.run env (Eng.init env id uri d ins) n).insts[0]? = some I) (hu : Undisturbed I) (hw : ∀ t, ¬ HasStatus I t .waiting) :
    I.status = .completed ∧ (∀ t ∈ d.main.tasks, Finished I t.id) ∧
      (Eng.run env (Eng.init env id uri d ins) n).queue = [] ∧ (Eng.run env (Eng.init env id uri d ins) n).stack = [] := by
  have ok := engOK_run (env := env) id uri d ins n
  generalize Eng.run env (Eng.init env id uri d ins) n = e at *
  obtain ⟨G, hno, hIS, hfr, _, hm⟩ := h I hI hu
  have hal := alone ok hno
  obtain ⟨hst, hnx⟩ : e.stack = [] ∧ Spec.next env e = none := by
    rcases hm with hm | hm
    · exact hm
    · omega
  have hstk : G.stk = [] := by
    rw [hst, ite_self] at hfr
    exact hfr.nil_iff
  have h0 : ∀ w ∈ e.queue, w.inst = 0 := fun w hw => by
    have := Readied.lt (ok.queue w hw)
    omega
  have hnowait : ∀ t, G.st t ≠ .waiting := fun t hx => hw t ((hIS.hasStatus (s := .waiting) (fun hc => nomatch hc)).2 hx)
  have hq : e.queue = [] := by
    rcases hIS.sim.compl.2 with hs | hs
    · have hno : ∀ t, G.st t ≠ .ready ∧ G.st t ≠ .waiting := by
        intro t
        rcases (hIS.inv.comp2 (hIS.sim.compl.1.2 hs)).1 t with ho | ho
        · rcases open_iff.1 ho with hx | hx <;> rw [hx] <;> exact ⟨(fun hc => nomatch hc), (fun hc => nomatch hc)⟩
        · rcases fin_iff.1 ho with hx | hx | hx <;> rw [hx] <;> exact ⟨(fun hc => nomatch hc), (fun hc => nomatch hc)⟩
      have := hIS.items hno
      apply List.eq_nil_iff_forall_not_mem.2
      exact fun w hw => this w hw (h0 w hw)
    · apply Decidable.byContradiction
      intro hq
      unfold Spec.next at hnx
      rw [if_pos ⟨hst, by unfold flowStatus; rw [hI]; simp [hs]⟩, List.getElem?_eq_getElem (Nat.mod_lt _ (List.length_pos_iff.2 hq))] at hnx
      cases hnx
  have hfin := hIS.inv.quiet hc.wf hc.acyclic hstk fun t => ⟨hIS.no_items (by rw [hq]; exact fun _ hc => nomatch hc) t, hnowait t⟩
  exact ⟨(hIS.sim.compl.1).1 (hIS.inv.comp1 hfin hne), fun t ht => (hIS.finished _).2 (hfin t ht), hq, hst⟩

end Flow.GraphM
