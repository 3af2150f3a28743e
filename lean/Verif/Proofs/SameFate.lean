import Verif.Proofs.Determined
import Verif.Proofs.Panics

/-
If one execution of a flow completes, every other execution whose tasks compute the same from the same data follows it (C108).
-/

namespace Flow.GraphM
open Spec Eng

variable {env env' : Env} {d : Def} {R R' : Nat → Eng} {N M n m : Nat} {p : DataPlan}

namespace Calmly

/-- The task evaluated is ready or waits for a called flow. -/
theorem live (h : Calmly env d R N) (hn : n ≤ N) {o : Nat} {t : TaskId} {e' : Eng} {r : EvalOut} (he : Evaluates env (R n) 0 o ⟨false, t⟩ e' r) :
    Live (mst (R n) t) := by
  obtain ⟨I, G, hI, hd, hu, hIS, hfr⟩ := h.state hn
  obtain ⟨⟨w, hw, hw0, rfl, _⟩, ht⟩ := he
  have hIS' := hIS
  rw [← hw0] at hIS'
  obtain ⟨u, hu1, hlive, hwt, _, _⟩ := own_next hw hIS'
  obtain ⟨ob, b1, b2, b3⟩ := hIS.sim.obj u _ hu1
  rw [Eng.obj?_eq hI, b1] at ht
  simp only [Option.map_some, Option.some.injEq] at ht
  rw [b2] at ht; cases ht
  rw [mst_of hI, hIS.tstat]
  exact hlive

theorem sooner_le (h : Calmly env d R N) {a t : TaskId} (hn : n < N) (hm : m ≤ N) (ha : EvalAt env (R n) a) (ht : Live (mst (R m) t))
    (hb : Before d.main a t) : n < m := by
  obtain ⟨o, e1, r, ha⟩ := ha
  have h1 := h.before hm ht hb
  have h2 := (h.eval hn ha).1
  apply Decidable.byContradiction
  intro hc
  rw [← h.keep (m := n) h1 (by omega) (by omega)] at h1
  exact h2.not_fin h1

theorem failed_links (h : Calmly env d R N) {I : Inst} (hI : (R N).insts[0]? = some I) {l : LinkDef} (hl : l ∈ d.main.links)
    (hs : mst (R N) l.src = .failed) : Followed I.trace l ↔ l.type = .error := by
  obtain ⟨I', G, hI', _, _, hH⟩ := h.state (Nat.le_refl N)
  rw [hI] at hI'; cases hI'
  rw [mst_of hI, hH.1.tstat] at hs
  rw [hH.1.followed]
  exact (hH.1.inv.outs l hl (by rw [hs]; simp [Fin, TaskStatus.code]) (by rw [hs]; exact fun hc => nomatch hc)).2 hs

end Calmly

theorem _root_.Flow.Spec.DataPlan.Agree.concludes {g : Graph} {t : TaskId} {e e1 f f1 : Eng} {r q : EvalOut} (h : p.Agree env env' g t e e1 r f f1 q) :
    Concludes r ↔ Concludes q := ⟨fun hr => hr.imp h.done.1 h.failed.1, fun hq => hq.imp h.done.2 h.failed.2⟩

/-- What the completed execution `R` tells about a task in the first `M` steps of `R'`. -/
structure Follows (p : DataPlan) (env env' : Env) (g : Graph) (R R' : Nat → Eng) (N M : Nat) (t : TaskId) : Prop where
  both : ¬ Open (mst (R' M) t) → ((∃ n < N, EvalAt env (R n) t) ↔ mst (R' M) t ≠ .skipped)
  agree : ∀ n < N, ∀ m < M, ∀ o o' e1 f1 r q, Evaluates env (R n) 0 o ⟨false, t⟩ e1 r → Evaluates env' (R' m) 0 o' ⟨false, t⟩ f1 q →
    roundAt env R t n = roundAt env' R' t m → p.Agree env env' g t (R n) e1 r (R' m) f1 q

namespace Follows

variable (h : Course env d R N) (h' : Calmly env' d R' M)
include h h'

/-- The evaluation of the same round. -/
theorem pairing {t : TaskId} (hb : ¬ Open (mst (R' M) t) → ((∃ n < N, EvalAt env (R n) t) ↔ mst (R' M) t ≠ .skipped))
    (hag : ∀ n < N, ∀ j < m, ∀ o o' e1 f1 r q, Evaluates env (R n) 0 o ⟨false, t⟩ e1 r → Evaluates env' (R' j) 0 o' ⟨false, t⟩ f1 q →
      roundAt env R t n = roundAt env' R' t j → p.Agree env env' d.main t (R n) e1 r (R' j) f1 q)
    (hm : m ≤ M) (hr : Live (mst (R' m) t)) :
    ∃ n < N, EvalAt env (R n) t ∧ roundAt env R t n = roundAt env' R' t m := by
  obtain ⟨h1, h2⟩ := h'.entered hm (Nat.le_refl M) hr
  obtain ⟨n0, hn0, ht0⟩ := (hb h1).2 h2
  by_cases hlt : roundAt env' R' t m < roundAt env R t N
  · exact round_exists hlt
  · exfalso
    obtain ⟨n, hn, _, o, e1, r, he, hr1⟩ := h.last_eval hn0 ht0
    have h3 : roundAt env R t n < roundAt env' R' t m := by
      have := roundAt_lt (m := N) ⟨o, e1, r, he⟩ hn
      omega
    obtain ⟨j, hj, ⟨o', f1, q, he'⟩, h4⟩ := round_exists h3
    have ha := hag n hn j hj o o' e1 f1 r q he he' h4.symm
    exact h'.no_more (by omega) he' (ha.concludes.1 hr1) hj hm hr

/-- The last evaluation. -/
theorem lasts {t : TaskId} (ht : Follows p env env' d.main R R' N M t) (hm : m < M) {o' : Nat} {f1 : Eng} {q : EvalOut}
    (he' : Evaluates env' (R' m) 0 o' ⟨false, t⟩ f1 q) (hq : Concludes q) :
    ∃ n < N, ∃ o e1 r, Evaluates env (R n) 0 o ⟨false, t⟩ e1 r ∧ Concludes r ∧ p.Agree env env' d.main t (R n) e1 r (R' m) f1 q := by
  obtain ⟨n, hn, ⟨o, e1, r, he⟩, h1⟩ := pairing h h' ht.both (m := m) (fun n hn j hj => ht.agree n hn j (by omega)) (Nat.le_of_lt hm) (h'.eval hm he').1
  have ha := ht.agree n hn m hm o o' e1 f1 r q he he' h1
  exact ⟨n, hn, o, e1, r, he, ha.concludes.2 hq, ha⟩

theorem links {I I' : Inst} (hI : (R N).insts[0]? = some I) (hI' : (R' M).insts[0]? = some I')
    {l : LinkDef} (hl : l ∈ d.main.links) (hfin : Fin (mst (R' M) l.src)) (ht : Follows p env env' d.main R R' N M l.src) :
    Followed I.trace l ↔ Followed I'.trace l := by
  have hmem : l ∈ d.main.toLinks l.src := List.mem_filter.2 ⟨hl, by simp⟩
  obtain ⟨k, hk⟩ := List.getElem?_of_mem hmem
  have hb := ht.both hfin.not_open
  by_cases hev : ∃ n < N, EvalAt env (R n) l.src
  · obtain ⟨m, hm, o', f1, q, he', _, hq⟩ := h'.final_eval (Nat.le_refl M) hfin.settled (hb.1 hev)
    have hq := hq.concludes hfin
    obtain ⟨n, hn, o, e1, r, he, hr, ha⟩ := lasts h h' ht hm he' hq
    rcases h.ended hn he hr with ⟨rfl, h1⟩ | ⟨h1, h2⟩
    · have hq := ha.done.1 rfl
      subst hq
      rw [h.links_done hn he hI hk, h'.links_done hm he' hI' hk]
      exact followed_congr (ha.links rfl) k
    · obtain ⟨x, hq'⟩ := ha.failed.1 h1
      obtain ⟨_, h3, h4⟩ := h'.eval hm he'
      rw [← h'.keep (h4 hq) hm (Nat.le_refl M)] at h3
      subst hq'
      rw [h.links_failed hI hl h2, h'.failed_links hI' hl h3]
  · refine ⟨fun hf => absurd (h.source hI hl hf) hev, fun hf => ?_⟩
    obtain ⟨J, G, hJ, _, _, hH⟩ := h'.state (Nat.le_refl M)
    rw [hI'] at hJ; cases hJ
    have hf := (hH.1.followed l).1 hf
    refine absurd (hb.2 ?_) hev
    rw [mst_of hI', hH.1.tstat]
    exact hH.1.inv.decsrc l hl hf

/-- The data computed by a task that is finished. -/
theorem owned (hk : p.Kept env R N) (hk' : p.Kept env' R' M) (h0 : ∀ k, p.data k → attrAt (R 0) 0 k = attrAt (R' 0) 0 k) {a : TaskId}
    (tw : Follows p env env' d.main R R' N M a) (hn : n ≤ N) (hm : m ≤ M) (hfm : Fin (mst (R' m) a))
    (hall : ∀ j < N, EvalAt env (R j) a → j < n) {k : String} (hd : p.data k) (ho : p.owner k = some a) : attrAt (R n) 0 k = attrAt (R' m) 0 k := by
  have hfin : Fin (mst (R' M) a) := by rw [h'.keep hfm hm (Nat.le_refl M)]; exact hfm
  have both := tw.both hfin.not_open
  have none' : ∀ j, m ≤ j → j < M → ¬ EvalAt env' (R' j) a := fun j h1 h2 ⟨o, f, q, hx⟩ => by
    have h3 := (h'.eval h2 hx).1
    rw [h'.keep hfm h1 (Nat.le_of_lt h2)] at h3
    exact h3.not_fin hfm
  by_cases hsk : mst (R' m) a = .skipped
  · have hsk' : mst (R' M) a = .skipped := by rw [h'.keep hfm hm (Nat.le_refl M)]; exact hsk
    have hev : ¬ ∃ n < N, EvalAt env (R n) a := fun hx => both.1 hx hsk'
    have hev' : ∀ j < m, ¬ EvalAt env' (R' j) a := fun j hj ⟨o, f, q, hx⟩ => (h'.entered (Nat.le_of_lt hj) hm (h'.eval (by omega) hx).1).2 hsk
    rw [h.idle hk hd (Nat.zero_le n) hn (fun c hc j _ h2 hx => by rw [ho] at hc; cases hc; exact hev ⟨j, by omega, hx⟩),
      h'.idle hk' hd (Nat.zero_le m) hm (fun c hc j _ h2 hx => by rw [ho] at hc; cases hc; exact hev' j h2 hx), h0 k hd]
  · obtain ⟨m', hm', oa', fa, qa, hea', _, hqa⟩ := h'.final_eval hm hfm.settled hsk
    have hqa := hqa.concludes hfm
    obtain ⟨n', hn', oa, ea, ra, hea, hra, hag⟩ := lasts h h' tw (by omega) hea' hqa
    have hs := hall n' hn' ⟨oa, ea, ra, hea⟩
    rw [h.idle hk hd (n := n' + 1) hs hn (fun c hc j h1 h2 ⟨x1, x2, x3, hx⟩ => by
        rw [ho] at hc; cases hc
        exact h.no_more hn' hea hra (m := j) (by omega) (by omega) (h.eval (by omega) hx).1),
      h'.idle hk' hd (n := m' + 1) hm' hm (fun c hc j h1 h2 ⟨x1, x2, x3, hx⟩ => by
        rw [ho] at hc; cases hc
        exact h'.no_more (by omega) hea' hqa (m := j) (by omega) (by omega) (h'.eval (by omega) hx).1),
      h.succ, h'.succ]
    exact hag.data k hd ho

/-- The data known before a task that is ready. -/
theorem known (hk : p.Kept env R N) (hk' : p.Kept env' R' M) (h0 : ∀ k, p.data k → attrAt (R 0) 0 k = attrAt (R' 0) 0 k) {t : TaskId}
    (hlow : ∀ a, Before d.main a t → Follows p env env' d.main R R' N M a) (hn : n < N) (ht : EvalAt env (R n) t) (hm : m ≤ M)
    (hr : Live (mst (R' m) t)) (k : String) (hkn : p.Known d.main t k) : attrAt (R n) 0 k = attrAt (R' m) 0 k := by
  obtain ⟨hd, hown⟩ := hkn
  cases ho : p.owner k with
  | none =>
    rw [h.idle hk hd (Nat.zero_le n) (Nat.le_of_lt hn) (fun a ha => by rw [ho] at ha; cases ha),
      h'.idle hk' hd (Nat.zero_le m) hm (fun a ha => by rw [ho] at ha; cases ha), h0 k hd]
  | some a =>
    have hb := hown a ho
    exact owned h h' hk hk' h0 (hlow a hb) (Nat.le_of_lt hn) hm (h'.before hm hr hb) (fun j hj hx => h.sooner hj hn hx ht hb) hd ho

/-- The data computed by the earlier rounds of a task. -/
theorem own_data (hk : p.Kept env R N) (hk' : p.Kept env' R' M) (h0 : ∀ k, p.data k → attrAt (R 0) 0 k = attrAt (R' 0) 0 k)
    (hf : p.Functional env env' d.main R R' N M) {t : TaskId}
    (hlow : ∀ a, Before d.main a t → Follows p env env' d.main R R' N M a) : ∀ (j : Nat) {n m : Nat}, n < N → EvalAt env (R n) t → m ≤ M →
      Live (mst (R' m) t) → roundAt env R t n = j → roundAt env' R' t m = j → ∀ k, p.data k → p.owner k = some t →
        attrAt (R n) 0 k = attrAt (R' m) 0 k := by
  intro j
  induction j with
  | zero =>
    intro n m hn ht hm hr hj hj' k hd ho
    rw [h.idle hk hd (Nat.zero_le n) (Nat.le_of_lt hn) (fun c hc i _ h2 hx => by
        rw [ho] at hc; cases hc
        have := roundAt_lt hx h2; omega),
      h'.idle hk' hd (Nat.zero_le m) hm (fun c hc i _ h2 hx => by
        rw [ho] at hc; cases hc
        have := roundAt_lt hx h2; omega), h0 k hd]
  | succ j ih =>
    intro n m hn ht hm hr hj hj' k hd ho
    obtain ⟨n1, a1, ⟨o, e1, r, a2⟩, a3⟩ := round_exists (show j < roundAt env R t n by omega)
    obtain ⟨m1, b1, ⟨o', f1, q, b2⟩, b3⟩ := round_exists (show j < roundAt env' R' t m by omega)
    have hrd := (h'.eval (show m1 < M by omega) b2).1
    have ha := hf n1 (by omega) m1 (by omega) t o o' e1 f1 r q a2 b2 (a3.trans b3.symm) fun k' hk1 => by
      rcases hk1 with hk1 | ⟨hk1, hk2⟩
      · exact known h h' hk hk' h0 hlow (by omega) ⟨o, e1, r, a2⟩ (by omega) hrd k' hk1
      · exact ih (by omega) ⟨o, e1, r, a2⟩ (by omega) hrd a3 b3 k' hk1 hk2
    have c1 := roundAt_eval (env := env) (R := R) (t := t) (n := n1) ⟨o, e1, r, a2⟩
    have c2 := roundAt_eval (env := env') (R := R') (t := t) (n := m1) ⟨o', f1, q, b2⟩
    rw [h.idle hk hd (n := n1 + 1) a1 (Nat.le_of_lt hn) (fun c hc i h1 h2 hx => by
        rw [ho] at hc; cases hc
        have := roundAt_lt hx h2
        have := roundAt_mono (env := env) (R := R) (t := t) h1
        omega),
      h'.idle hk' hd (n := m1 + 1) b1 hm (fun c hc i h1 h2 hx => by
        rw [ho] at hc; cases hc
        have := roundAt_lt hx h2
        have := roundAt_mono (env := env') (R := R') (t := t) h1
        omega),
      h.succ, h'.succ]
    exact ha.data k hd ho

/-- All data that an evaluation can depend on. -/
theorem found (hk : p.Kept env R N) (hk' : p.Kept env' R' M) (h0 : ∀ k, p.data k → attrAt (R 0) 0 k = attrAt (R' 0) 0 k)
    (hf : p.Functional env env' d.main R R' N M) {t : TaskId}
    (hlow : ∀ a, Before d.main a t → Follows p env env' d.main R R' N M a) (hn : n < N) (ht : EvalAt env (R n) t) (hm : m ≤ M)
    (hr : Live (mst (R' m) t)) (hj : roundAt env R t n = roundAt env' R' t m) (k : String)
    (hkn : p.Known d.main t k ∨ (p.data k ∧ p.owner k = some t)) : attrAt (R n) 0 k = attrAt (R' m) 0 k := by
  rcases hkn with hk1 | ⟨hk1, hk2⟩
  · exact known h h' hk hk' h0 hlow hn ht hm hr k hk1
  · exact own_data h h' hk hk' h0 hf hlow _ hn ht hm hr hj rfl k hk1 hk2

theorem all (hk : p.Kept env R N) (hk' : p.Kept env' R' M) (h0 : ∀ k, p.data k → attrAt (R 0) 0 k = attrAt (R' 0) 0 k)
    (hf : p.Functional env env' d.main R R' N M) (t : TaskId) : Follows p env env' d.main R R' N M t := by
  obtain ⟨rank, hrank⟩ := h.cov.acyclic
  have hpath : ∀ {x y : TaskId}, Path d.main x y → rank x ≤ rank y := by
    intro x y hp
    induction hp with
    | refl => exact Nat.le_refl _
    | step hl _ ih => exact Nat.le_trans (Nat.le_of_lt (hrank _ hl)) ih
  have hbefore : ∀ {a t : TaskId}, Before d.main a t → rank a < rank t := by
    rintro a t ⟨l, hl, rfl, hp⟩
    exact Nat.lt_of_lt_of_le (hrank l hl) (hpath hp)
  obtain ⟨I, hI, _⟩ := h.inst N
  obtain ⟨I', G, hI', _, _, hH⟩ := h'.state (Nat.le_refl M)
  have hms : ∀ t, mst (R' M) t = G.st t := fun t => (mst_of hI' t).trans (hH.1.tstat t)
  suffices hall : ∀ b t, rank t < b → Follows p env env' d.main R R' N M t from hall _ t (Nat.lt_succ_self _)
  intro b
  induction b with
  | zero => intro t ht; exact absurd ht (Nat.not_lt_zero _)
  | succ b ih =>
    intro t ht
    have hlow : ∀ a, Before d.main a t → Follows p env env' d.main R R' N M a := fun a ha => ih a (by have := hbefore ha; omega)
    refine ⟨fun hno => ?_, fun n hn m hm o o' e1 f1 r q he he' hj => hf n hn m hm t o o' e1 f1 r q he he' hj
      (found h h' hk hk' h0 hf hlow hn ⟨o, e1, r, he⟩ (Nat.le_of_lt hm) (h'.live (Nat.le_of_lt hm) he') hj)⟩
    rw [hms] at hno ⊢
    have hlinks : ∀ l ∈ d.main.links, l.dst = t → (Followed I.trace l ↔ Followed I'.trace l) := by
      rintro l hl rfl
      exact links h h' hI hI' hl (by rw [hms]; exact hH.1.inv.preds l hl hno) (hlow _ ⟨l, hl, rfl, .refl _⟩)
    rw [← h.executed_iff hI, h.executed_by hI]
    constructor
    · rintro (⟨_, h2⟩ | ⟨l, h1, h2, h3⟩) hs
      · exact (hH.1.inv.skipd t hs).1 h2
      · exact (hH.1.inv.skipd t hs).2 l h1 h2 ((hH.1.followed l).1 ((hlinks l h1 h2).1 h3))
    · intro hs
      rcases hH.1.inv.execd t hno hs with h1 | ⟨l, h1, h2, h3⟩
      · refine Or.inl ⟨hH.1.inv.dom t fun hc => hno ?_, h1⟩
        rw [hc]; simp [Open, TaskStatus.code]
      · exact Or.inr ⟨l, h1, h2, (hlinks l h1 h2).2 ((hH.1.followed l).2 h3)⟩

end Follows

/-! ### The next step is undisturbed, too -/

/-- Whether an error reached the main flow, and whether an activity ended it. -/
def flags (e : Eng) : Option (Bool × Bool) := e.insts[0]?.map fun I => (I.handling, I.force)

theorem flags_of {e : Eng} {I : Inst} (hI : e.insts[0]? = some I) : flags e = some (I.handling, I.force) := by unfold flags; rw [hI]; rfl

theorem flags_frame {e f : Eng} {c : Nat} {I : Inst} (h : EnterFrame c e f) (hI : e.insts[0]? = some I) : flags f = flags e := by
  obtain ⟨J, hJ, _, _, _, h1, _, _, h2, _⟩ := h.insts 0 I hI
  rw [flags_of hI, flags_of hJ, h1, h2]

/-- A task that succeeds, whose link conditions do not fail. -/
theorem flags_done {e : Eng} {I : Inst} {o : Nat} {t : TaskId} {name : String} (hI : e.insts[0]? = some I)
    (hx : ¬ exprFails (I.defn.main.toLinks t) (env.link e 0)) : flags (handleResult env e 0 o ⟨false, t⟩ name (.res .done)) = flags e := by
  have hok : ∃ es, (I.doneTask env.prio (env.link e 0) o ⟨false, t⟩).2 = .ok es := by
    unfold Inst.doneTask
    dsimp only
    have hto : I.defn.toLinks ⟨false, t⟩ = I.defn.main.toLinks t := rfl
    rw [hto]
    cases hr : doneRows env.prio (env.link e 0) (I.defn.main.toLinks t) with
    | ok rows => exact ⟨_, rfl⟩
    | error q => exact absurd ((C03_fails_iff _ _ _).1 ⟨q.1, q.2, hr⟩) hx
  obtain ⟨es, hes⟩ := hok
  unfold handleResult
  dsimp only
  unfold taskDone
  rw [hI]
  dsimp only
  have hc := Calm.doneTask env.prio (env.link e 0) I o ⟨false, t⟩
  generalize I.doneTask env.prio (env.link e 0) o ⟨false, t⟩ = q at hes hc ⊢
  obtain ⟨J, x⟩ := q
  dsimp only at hes hc
  subst hes
  dsimp only
  have h1 : (e.modI 0 (fun _ => J)).insts[0]? = some J := modI_self hI _
  rw [flags_frame (EnterFrame.finishTask _ 0 _ _ _ _) h1, flags_of h1, flags_of hI, hc.handling, hc.force]

/-- A task that fails and has an error link. -/
theorem flags_error {e : Eng} {I : Inst} {o : Nat} {t : TaskId} {name : String} {x : Err} (hI : e.insts[0]? = some I)
    (hl : hasErrorLink I.defn ⟨false, t⟩) : flags (handleResult env e 0 o ⟨false, t⟩ name (.err x)) = flags e := by
  have hok : ∃ es, (I.errorTask o ⟨false, t⟩).2 = some es := by
    obtain ⟨l, h1, h2⟩ := hl
    unfold Inst.errorTask errorRows
    dsimp only
    rw [if_pos (List.any_eq_true.2 ⟨l, h1, decide_eq_true h2⟩)]
    exact ⟨_, rfl⟩
  obtain ⟨es, hes⟩ := hok
  unfold handleResult
  dsimp only
  unfold taskError
  rw [hI]
  dsimp only
  have hc := Calm.errorTask I o ⟨false, t⟩
  generalize I.errorTask o ⟨false, t⟩ = q at hes hc ⊢
  obtain ⟨J, y⟩ := q
  dsimp only at hes hc
  subst hes
  dsimp only
  refine (flags_of (I := J.setValue ("_E." ++ t) (errorObj t x)) (modI_self hI _)).trans ?_
  rw [flags_of hI]
  show some (J.handling, J.force) = _
  rw [hc.handling, hc.force]

/-- A round of a loop that is to be followed by another one. -/
theorem flags_again {e : Eng} {o : Nat} {t : TaskRef} {name : String} : flags (handleResult env e 0 o t name (.res .again)) = flags e := rfl

/-- A task that waits. -/
theorem flags_wait {e : Eng} {I : Inst} {o : Nat} {t : TaskRef} {name : String} (hI : e.insts[0]? = some I) :
    flags (handleResult env e 0 o t name (.res .wait)) = flags e := by
  have h1 : (handleResult env e 0 o t name (.res .wait)).insts[0]? = some (I.setTaskStatus o .waiting) := modI_self hI _
  have hc := Calm.setTaskStatus I o .waiting
  rw [flags_of h1, flags_of hI, hc.handling, hc.force]

/-- An evaluation in an undisturbed execution: the flags are the same before and after the result is handled. -/
theorem Calmly.flags (h : Calmly env d R N) (hn : n < N) {o : Nat} {t : TaskId} {e' : Eng} {r : EvalOut} (he : Evaluates env (R n) 0 o ⟨false, t⟩ e' r)
    (hr : r = .res .again ∨ r = .res .wait ∨ r = .res .done ∨ ∃ x, r = .err x) :
    GraphM.flags e' = some (false, false) ∧ (∀ x, r = .err x → hasErrorLink d ⟨false, t⟩) := by
  obtain ⟨I, hI, hd⟩ := h.inst n
  obtain ⟨I', hI', hd'⟩ := h.inst (n + 1)
  have hu := h.calm (Nat.le_of_lt hn) hI
  have hu' := h.calm hn hI'
  have hfl : GraphM.flags (R (n + 1)) = some (false, false) := by rw [flags_of hI', hu'.1, hu'.2]
  obtain ⟨⟨name, hstep⟩, _, _, hin⟩ := Eng.evaluates_step he
  obtain ⟨I1, ob, hI1, _, _, hd1, hh1, _⟩ := hin I hI
  rcases hr with rfl | rfl | rfl | ⟨x, rfl⟩
  · refine ⟨?_, fun x hc => nomatch hc⟩
    rw [← flags_again (env := env) (e := e') (name := name) (o := o) (t := ⟨false, t⟩), ← hstep, ← h.succ]
    exact hfl
  · refine ⟨?_, fun x hc => nomatch hc⟩
    rw [← flags_wait (env := env) (e := e') (name := name) (o := o) (t := ⟨false, t⟩) hI1, ← hstep, ← h.succ]
    exact hfl
  · have hx := h.conditions hn he
    refine ⟨?_, fun x hc => nomatch hc⟩
    rw [← flags_done (name := name) (o := o) (t := t) hI1 (by rw [hd1, hd]; exact hx), ← hstep, ← h.succ]
    exact hfl
  · have hl : hasErrorLink d ⟨false, t⟩ := by
      apply Classical.byContradiction
      intro hc
      rw [h.succ, hstep] at hI'
      unfold handleResult at hI'
      dsimp only at hI'
      rw [taskError_noLink hI1 (by rw [hd1, hd]; exact hc) (by rw [hh1]; exact hu.1)] at hI'
      obtain ⟨K, hK, hh⟩ := globalError_handling (appendErrorData_self (Eng.modI_self hI1 _) _ _) _
      rw [hK] at hI'; cases hI'
      have := hu'.1
      rw [hh] at this; cases this
    refine ⟨?_, fun _ _ => hl⟩
    rw [← flags_error (name := name) (o := o) (t := t) (x := x) (env := env) hI1 (by rw [hd1, hd]; exact hl), ← hstep, ← h.succ]
    exact hfl

/-- There is no other flow. -/
theorem Calmly.alone (h : Calmly env d R N) (hlf : Leaf d.main) (hn : n ≤ N) : (R n).insts.length = 1 := by
  obtain ⟨I, hI, _⟩ := h.inst n
  have h1 := (List.getElem?_eq_some_iff.1 hI).1
  apply Classical.byContradiction
  intro hc
  have h2 : 1 < (R n).insts.length := by omega
  obtain ⟨hi, ho, h3, h4, _⟩ := (Eng.engOK_reachable (h.reach n)).hosts 1 _ (List.getElem?_eq_getElem h2) (by decide)
  exact h.nohost hlf hn 1 _ hi ho (List.getElem?_eq_getElem h2) h3 (by omega)

theorem task_unique {l : List TaskDef} (hn : (l.map (·.id)).Nodup) {a b : TaskDef} (ha : a ∈ l) (hb : b ∈ l) (h : a.id = b.id) : a = b := by
  induction l with
  | nil => cases ha
  | cons x l ih =>
    rw [List.map_cons, List.nodup_cons] at hn
    rcases List.mem_cons.1 ha with h1 | h1 <;> rcases List.mem_cons.1 hb with h2 | h2
    · exact h1.trans h2.symm
    · subst h1; exact absurd (List.mem_map.2 ⟨b, h2, h.symm⟩) hn.1
    · subst h2; exact absurd (List.mem_map.2 ⟨a, h1, h⟩) hn.1
    · exact ih hn.2 h1 h2

/-- A task that calls a flow is not a loop, so that its evaluation cannot panic. -/
theorem Calmly.no_panic (h : Calmly env d R N) {o : Nat} {t : TaskId} {e' : Eng} {x : String} (hs : SubTask d.main t)
    (he : Evaluates env (R n) 0 o ⟨false, t⟩ e' (.panic x)) : False := by
  obtain ⟨td, f, h1, h2, _⟩ := Eng.panic_source (h.reach n) he
  obtain ⟨I, hI, hd⟩ := h.inst n
  obtain ⟨td', h3, h4, h5⟩ := hs
  unfold Eng.taskDef? at h1
  rw [hI] at h1
  dsimp only at h1
  rw [hd] at h1
  have h6 := List.mem_of_find?_eq_some h1
  have h7 : td.id = t := by simpa using List.find?_some (p := fun x : TaskDef => decide (x.id = t)) h1
  have h8 : td = td' := task_unique h.cov.wf.tasks h6 h3 (h7.trans h4.symm)
  subst h8
  cases ha : td.act with
  | subflow uri => rw [h.cov.sub td h3 uri ha] at h2; cases h2
  | _ => rw [ha] at h5; exact h5 rfl

theorem Leaf.noSub {g : Graph} (hlf : Leaf g) (t : TaskId) : ¬ SubTask g t := by
  rintro ⟨td, h1, _, h3⟩
  cases ha : td.act with
  | subflow uri => exact hlf td h1 uri ha
  | _ => rw [ha] at h3; exact h3 rfl

theorem Calmly.next (h : Course env d R N) (h' : Calmly env' d R' M) (hsv : Leaf d.main ∨ Served (R' (M + 1)) 0) (hk : p.Kept env R N) (hk' : p.Kept env' R' M)
    (h0 : ∀ k, p.data k → attrAt (R 0) 0 k = attrAt (R' 0) 0 k) (hf : p.Functional env env' d.main R R' N (M + 1)) : Calmly env' d R' (M + 1) := by
  have tw := Follows.all h h' hk hk' h0 fun n hn m hm => hf n hn m (by omega)
  obtain ⟨I, G, hI, hd, hu, hIS, hfr⟩ := h'.state (Nat.le_refl M)
  obtain ⟨I', hI', hd'⟩ := h'.inst (M + 1)
  have hfl : GraphM.flags (R' M) = some (false, false) := by rw [flags_of hI, hu.1, hu.2]
  suffices hs : GraphM.flags (R' (M + 1)) = some (false, false) by
    rw [flags_of hI'] at hs
    simp only [Option.some.injEq, Prod.mk.injEq] at hs
    exact { h' with calls := hsv, last := ⟨I', hI', hs.1, hs.2⟩ }
  have ok := Eng.engOK_reachable (h'.reach M)
  rw [h'.succ]
  cases hn : Spec.next env' (R' M) with
  | none =>
    cases hs : (R' M).stack with
    | nil =>
      rw [step_idle hs hn (List.getElem?_eq_some_iff.1 hI).1]
      exact hfl
    | cons f rest => rw [flags_frame (EnterFrame.step (by rw [hs]; exact fun hc => nomatch hc)) hI]; exact hfl
  | some w =>
   by_cases hw0 : w.inst = 0
   case neg =>
    rcases hsv with hlf | hs
    · obtain ⟨J, ob, a1, a2, _⟩ := ok.queue w (List.mem_of_getElem? (next_some hn).2.2)
      have := (List.getElem?_eq_some_iff.1 a1).1
      rw [h'.alone hlf (Nat.le_refl M)] at this; omega
    · rw [h'.succ] at hs
      obtain ⟨J, h3, h4⟩ := (Sees.step (env := env') (EngOK.top ok) (List.getElem?_eq_some_iff.1 hI).1 (Or.inl (next_some hn).1)
        (fun w' hw' => by rw [hn] at hw'; cases hw'; exact hw0)).inst hs.2 I hI
      rw [flags_of h3, h4.eq]
      show some (I.handling, I.force) = _
      rw [hu.1, hu.2]
   case pos =>
    cases ho : outcome env' (afterPop env' (R' M) w) w.inst w.obj with
    | none => rw [step_next hn, exec_none ho]; exact hfl
    | some q =>
      obtain ⟨f1, q⟩ := q
      obtain ⟨J, ob, a1, a2, _⟩ := ok.queue w (List.mem_of_getElem? (next_some hn).2.2)
      rw [hw0] at a1 ho
      have he : Evaluates env' (R' M) 0 w.obj ob.task f1 q := ⟨⟨w, hn, hw0, rfl, ho⟩, by rw [Eng.obj?_eq a1, a2]; rfl⟩
      rw [h'.own (Nat.le_refl M) he] at he
      generalize ob.task.id = t at he
      have hrd := h'.live (Nat.le_refl M) he
      obtain ⟨n, hnN, ⟨o, e1, r, he0⟩, hj⟩ := Follows.pairing h h' (tw t).both (fun n hn j hj => (tw t).agree n hn j hj) (Nat.le_refl M) hrd
      have ha := hf n hnN M (Nat.lt_succ_self M) t o w.obj e1 f1 r q he0 he hj
        (Follows.found h h' hk hk' h0 (fun n hn m hm => hf n hn m (by omega)) (fun a _ => tw a) hnN ⟨o, e1, r, he0⟩ (Nat.le_refl M) hrd hj)
      have hr : r = .res .again ∨ r = .res .wait ∨ r = .res .done ∨ ∃ x, r = .err x := by
        have h1 := (h.eval hnN he0).2.1
        cases r with
        | res r =>
          cases r with
          | done => exact Or.inr (Or.inr (Or.inl rfl))
          | wait => exact Or.inr (Or.inl rfl)
          | again => exact Or.inl rfl
          | skip => cases h1
          | fail => cases h1
        | err x => exact Or.inr (Or.inr (Or.inr ⟨x, rfl⟩))
        | panic _ => cases h1
      obtain ⟨hfl1, hel⟩ := h.toCalmly.flags hnN he0 hr
      obtain ⟨⟨name, hstep⟩, _, _, hin⟩ := Eng.evaluates_step he
      obtain ⟨F, ob', hF, _, _, hd1, hh1, _⟩ := hin I hI
      have hff : F.force = false := by
        cases hc : F.force with
        | false => rfl
        | true =>
          obtain ⟨K, hK, hK2⟩ := ha.returns.2 ⟨F, hF, hc⟩
          rw [flags_of hK, hK2] at hfl1; simp at hfl1
      have hflF : GraphM.flags f1 = some (false, false) := by rw [flags_of hF, hh1, hu.1, hff]
      rw [hstep]
      rcases hr with rfl | rfl | rfl | ⟨x, rfl⟩
      · have hq := ha.again.1 rfl
        subst hq
        exact hflF
      · rcases Eng.evaluates_results he with rfl | rfl | rfl | ⟨y, rfl⟩ | ⟨y, rfl⟩
        · have := ha.done.2 rfl; cases this
        · rw [flags_wait hF]; exact hflF
        · have := ha.again.2 rfl; cases this
        · obtain ⟨z, hz⟩ := ha.failed.2 ⟨y, rfl⟩; cases hz
        · exact (h'.no_panic (h.wait_sub hnN he0) he).elim
      · have hq := ha.done.1 rfl
        subst hq
        rw [flags_done hF ?_]
        · exact hflF
        · rw [hd1, hd]
          rintro ⟨l, h1, h2, msg, h3⟩
          exact h.conditions hnN he0 ⟨l, h1, h2, msg, by rw [ha.links rfl l h1]; exact h3⟩
      · obtain ⟨y, hq⟩ := ha.failed.1 ⟨x, rfl⟩
        subst hq
        rw [flags_error hF (by rw [hd1, hd]; exact hel x rfl)]
        exact hflF

theorem flags_enterStart (xs : List TaskEntry) : ∀ (e : Eng) (I : Inst), e.insts[0]? = some I → GraphM.flags (enterStart env e 0 xs) = GraphM.flags e := by
  induction xs with
  | nil => intro e I _; rfl
  | cons x xs ih =>
    intro e I hI
    unfold enterStart
    rw [hI]
    dsimp only
    have h1 : (e.modI 0 (fun _ => (I.enterTask x.task).1)).insts[0]? = some (I.enterTask x.task).1 := modI_self hI _
    have hc := Calm.enterTask I x.task
    have h2 : GraphM.flags (e.modI 0 (fun _ => (I.enterTask x.task).1)) = GraphM.flags e := by
      rw [flags_of h1, flags_of hI, hc.handling, hc.force]
    split
    · split
      · rw [ih _ _ (by exact h1)]; exact h2
      · exact h2
    · rw [ih _ _ h1, h2]

/-- Every execution stays undisturbed. -/
theorem Calmly.always (h : Course env d R N) (hset : SettingsOk env') {id uri : String} {ins : AMap String Val}
    (hR : ∀ n, R' n = Eng.run env' (Eng.init env' id uri d ins) n) (hk : p.Kept env R N)
    (h0 : ∀ k, p.data k → attrAt (R 0) 0 k = attrAt (R' 0) 0 k) :
    ∀ M, (Leaf d.main ∨ Served (R' M) 0) → p.Kept env' R' M → p.Functional env env' d.main R R' N M → Calmly env' d R' M := by
  intro M
  induction M with
  | zero =>
    intro hsv _ _
    refine ⟨hset, ⟨id, uri, ins, hR⟩, h.cov, hsv, ?_⟩
    obtain ⟨I, hI⟩ := root_exists (env := env') (id := id) (uri := uri) (d := d) (ins := ins) 0
    have h1 : GraphM.flags (Eng.init env' id uri d ins) = some (false, false) := by
      have hn : (Eng.new id uri d).insts[0]? = some { defn := d, uri := uri } := rfl
      unfold Eng.init startInstance
      rw [hn]
      dsimp only
      rw [flags_enterStart _ _ _ (modI_self hn _), flags_of (modI_self hn _)]
      rfl
    have hI' : (Eng.init env' id uri d ins).insts[0]? = some I := hI
    rw [flags_of hI'] at h1
    simp only [Option.some.injEq, Prod.mk.injEq] at h1
    exact ⟨I, by rw [hR]; exact hI, h1.1, h1.2⟩
  | succ M ih =>
    intro hsv hk' hf
    have hk1 : p.Kept env' R' M := fun m hm => hk' m (by omega)
    have hsv1 : Leaf d.main ∨ Served (R' M) 0 := hsv.imp_right fun hs => by
      refine Served.back (e' := R' (M + 1)) ?_ hs
      have := (Eng.good_run (env := env') (R' M) 1 (Eng.engOK_reachable ⟨id, uri, d, ins, M, hR M⟩)).2
      rw [show Eng.run env' (R' M) 1 = R' (M + 1) from by rw [hR, hR]; rfl] at this
      exact this
    exact Calmly.next h (ih hsv1 hk1 fun n hn m hm => hf n hn m (by omega)) hsv hk hk1 h0 hf

/-- Nothing waits but tasks that call flows: a task that waited would wait in the completed execution, too. -/
theorem Calmly.no_wait (h : Course env d R N) (h' : Calmly env' d R' M) (hk : p.Kept env R N) (hk' : p.Kept env' R' M)
    (h0 : ∀ k, p.data k → attrAt (R 0) 0 k = attrAt (R' 0) 0 k) (hf : p.Functional env env' d.main R R' N M) {t : TaskId} (hns : ¬ SubTask d.main t) :
    mst (R' M) t ≠ .waiting := by
  intro hs
  have tw := Follows.all h h' hk hk' h0 hf t
  obtain ⟨m, hm, o', f1, q, he', hq, h2⟩ := h'.final_eval (t := t) (Nat.le_refl M) (by rw [hs]; simp [Settled, TaskStatus.code]) (by rw [hs]; exact fun hc => nomatch hc)
  rw [hs] at h2
  have hqw : q = .res .wait := by
    cases q with
    | res q =>
      cases q with
      | wait => rfl
      | _ => cases h2
    | err _ => cases h2
    | panic _ => cases h2
  subst hqw
  obtain ⟨n, hn, ⟨o, e1, r, he⟩, hj⟩ := Follows.pairing h h' tw.both (m := m) (fun n hn j hj => tw.agree n hn j (by omega)) (Nat.le_of_lt hm) (h'.eval hm he').1
  have ha := tw.agree n hn m hm o o' e1 f1 r _ he he' hj
  have h1 := (h.eval hn he).2.1
  cases r with
  | res r =>
    cases r with
    | done => have := ha.done.1 rfl; cases this
    | wait => exact hns (h.wait_sub hn he)
    | again => have := ha.again.1 rfl; cases this
    | skip => cases h1
    | fail => cases h1
  | err x => obtain ⟨y, hy⟩ := ha.failed.1 ⟨x, rfl⟩; cases hy
  | panic _ => cases h1

/-! ### What follows for the end -/

theorem _root_.Flow.Spec.DataPlan.Agree.symm {g : Graph} {t : TaskId} {e e1 f f1 : Eng} {r q : EvalOut} (h : p.Agree env env' g t e e1 r f f1 q) :
    p.Agree env' env g t f f1 q e e1 r :=
  ⟨h.done.symm, h.failed.symm, h.again.symm, h.returns.symm, fun k a b => (h.data k a b).symm, fun hq l hl => (h.links (h.done.2 hq) l hl).symm⟩

theorem _root_.Flow.Spec.DataPlan.Functional.symm {g : Graph} (h : p.Functional env env' g R R' N M) : p.Functional env' env g R' R M N :=
  fun m hm m' hm' t o o' e1 f1 r q he he' hj hk => (h m' hm' m hm t o' o f1 e1 q r he' he hj.symm fun k hx => (hk k hx).symm).symm

/-- The status of a task at the end. -/
theorem Course.status (h : Course env d R N) {I : Inst} (hI : (R N).insts[0]? = some I) {t : TaskId} {s : TaskStatus} (hs : s ≠ .notStarted) :
    HasStatus I t s ↔ mst (R N) t = s := by
  obtain ⟨I', G, hI', hH, _, hm⟩ := h.final
  rw [hI] at hI'; cases hI'
  rw [hH.1.hasStatus hs, hm]

namespace Follows

variable (h : Course env d R N) (h' : Course env' d R' M)
include h h'

theorem same_executed (tw : ∀ t, Follows p env env' d.main R R' N M t) {I I' : Inst}
    (hI : (R N).insts[0]? = some I) (hI' : (R' M).insts[0]? = some I') (t : TaskId) (hx : Executed I'.trace t) : Executed I.trace t := by
  obtain ⟨J, G, hJ, hH, hc, hm⟩ := h'.final
  rw [hI'] at hJ; cases hJ
  obtain ⟨h1, h2⟩ := (hH.1.executed t).1 hx
  rw [← hm] at h1 h2
  exact (h.executed_iff hI t).2 (((tw t).both h1).2 h2)

theorem same_ended (tw : ∀ t, Follows p env env' d.main R R' N M t) (t : TaskId) {s : TaskStatus} (hs : s = .done ∨ s = .failed)
    (hx : mst (R' M) t = s) : mst (R N) t = s := by
  have h1 : Fin (mst (R' M) t) ∧ mst (R' M) t ≠ .skipped := by rw [hx]; rcases hs with rfl | rfl <;> exact ⟨by simp [Fin, TaskStatus.code], fun hc => nomatch hc⟩
  obtain ⟨m, hm, o', f1, q, he', _, hq⟩ := h'.final_eval (Nat.le_refl M) h1.1.settled h1.2
  have hq := hq.concludes h1.1
  obtain ⟨n, hn, o, e1, r, he, hr, ha⟩ := lasts h h'.toCalmly (tw t) hm he' hq
  rcases h.ended hn he hr with ⟨a1, a2⟩ | ⟨⟨x, a1⟩, a2⟩
  · rcases h'.ended hm he' hq with ⟨_, b2⟩ | ⟨⟨x, b1⟩, _⟩
    · rw [a2, ← hx, b2]
    · rw [ha.done.1 a1] at b1; cases b1
  · rcases h'.ended hm he' hq with ⟨b1, _⟩ | ⟨_, b2⟩
    · rw [ha.done.2 b1] at a1; cases a1
    · rw [a2, ← hx, b2]

theorem same_links (tw : ∀ t, Follows p env env' d.main R R' N M t) {I I' : Inst} (hI : (R N).insts[0]? = some I) (hI' : (R' M).insts[0]? = some I')
    {l : LinkDef} (hl : l ∈ d.main.links) (hx : Followed I'.trace l) : Followed I.trace l := by
  obtain ⟨J, G, hJ, hH, hc, hm⟩ := h'.final
  rw [hI'] at hJ; cases hJ
  have hf := (hH.1.followed l).1 hx
  have h1 := (hH.1.inv.lkset l hl).1 (by rw [hf]; exact fun hc => nomatch hc)
  exact (links h h'.toCalmly hI hI' hl (by rw [hm]; exact h1) (tw _)).2 hx

theorem same_data (tw : ∀ t, Follows p env env' d.main R R' N M t) (hex : ∀ t, (∃ n < N, EvalAt env (R n) t) → ∃ m < M, EvalAt env' (R' m) t)
    (hk : p.Kept env R N) (hk' : p.Kept env' R' M) (h0 : ∀ k, p.data k → attrAt (R 0) 0 k = attrAt (R' 0) 0 k) (k : String) (hd : p.data k) :
    attrAt (R N) 0 k = attrAt (R' M) 0 k := by
  obtain ⟨J, G, hJ, hH, hc, hm⟩ := h'.final
  by_cases hev : ∃ a, p.owner k = some a ∧ ∃ m < M, EvalAt env' (R' m) a
  · obtain ⟨a, ho, m, h1, o, f, q, h2⟩ := hev
    have h3 := (h'.entered (Nat.le_of_lt h1) (Nat.le_refl M) (h'.eval h1 h2).1).1
    rw [hm] at h3
    exact owned h h'.toCalmly hk hk' h0 (tw a) (Nat.le_refl N) (Nat.le_refl M) (by rw [hm]; exact ((hH.1.inv.comp2 hc).1 a).resolve_left h3)
      (fun j hj _ => hj) hd ho
  · rw [h.idle hk hd (Nat.zero_le N) (Nat.le_refl N) (fun c hc j _ h2 hx => hev ⟨c, hc, hex c ⟨j, h2, hx⟩⟩),
      h'.idle hk' hd (Nat.zero_le M) (Nat.le_refl M) (fun c hc j _ h2 hx => hev ⟨c, hc, j, h2, hx⟩), h0 k hd]

end Follows

/-! ### Rounds of loops -/

theorem countP_without {Q : Nat → Bool} {N n : Nat} (hn : n < N) (hq : Q n = true) :
    (List.range N).countP (fun x => Q x && x != n) + 1 = (List.range N).countP Q := by
  induction N with
  | zero => exact absurd hn (Nat.not_lt_zero _)
  | succ N ih =>
    rw [List.range_succ, List.countP_append, List.countP_append, List.countP_singleton, List.countP_singleton]
    by_cases hc : n = N
    · subst hc
      rw [hq, show (List.range n).countP (fun x => Q x && x != n) = (List.range n).countP Q from List.countP_congr fun x hx => by
        have : x ≠ n := Nat.ne_of_lt (List.mem_range.1 hx)
        simp [this]]
      simp
    · have := ih (by omega)
      have hN : (N != n) = true := bne_iff_ne.2 fun h => hc h.symm
      rw [hN, Bool.and_true]
      omega

/-- Different elements of the first kind belong to different ones of the second kind. -/
theorem countP_le_of {P : Nat → Bool} {F : Nat → Nat → Prop} (hinj : ∀ m m' n, F m n → F m' n → m = m') {N : Nat} : ∀ (M : Nat) (Q : Nat → Bool),
    (∀ m < M, P m = true → ∃ n < N, Q n = true ∧ F m n) → (List.range M).countP P ≤ (List.range N).countP Q := by
  intro M
  induction M with
  | zero => intro Q _; exact Nat.zero_le _
  | succ M ih =>
    intro Q h
    rw [List.range_succ, List.countP_append, List.countP_singleton]
    cases hp : P M with
    | false => exact ih Q fun m hm => h m (by omega)
    | true =>
      obtain ⟨n, h1, h2, h3⟩ := h M (Nat.lt_succ_self M) hp
      rw [← countP_without h1 h2]
      refine Nat.succ_le_succ (ih _ fun m hm hpm => ?_)
      obtain ⟨n', a1, a2, a3⟩ := h m (by omega) hpm
      refine ⟨n', a1, ?_, a3⟩
      rw [a2, Bool.true_and]
      refine bne_iff_ne.2 fun hc => ?_
      subst hc
      have := hinj _ _ _ a3 h3
      omega

theorem Calmly.loopsBack_iff (hlf : Leaf d.main) (h : Calmly env d R N) (hn : n ≤ N) :
    loopsBack env (R n) = true ↔ ∃ t o e', Evaluates env (R n) 0 o ⟨false, t⟩ e' (.res .again) := by
  unfold loopsBack
  constructor
  · intro hx
    cases hw : Spec.next env (R n) with
    | none => rw [hw] at hx; cases hx
    | some w =>
      rw [hw, Option.any_some] at hx
      cases ho : outcome env (afterPop env (R n) w) w.inst w.obj with
      | none => rw [ho] at hx; cases hx
      | some q =>
        obtain ⟨f1, q⟩ := q
        rw [ho, Option.any_some] at hx
        have hq : q = .res .again := by
          cases q with
          | res r => cases r <;> first | rfl | cases hx
          | err _ => cases hx
          | panic _ => cases hx
        subst hq
        obtain ⟨J, ob, a1, a2, _⟩ := (Eng.engOK_reachable (h.reach n)).queue w (List.mem_of_getElem? (next_some hw).2.2)
        have hw0 : w.inst = 0 := by
          have := (List.getElem?_eq_some_iff.1 a1).1
          rw [h.alone hlf hn] at this; omega
        rw [hw0] at a1 ho
        have he : Evaluates env (R n) 0 w.obj ob.task f1 (.res .again) := ⟨⟨w, hw, hw0, rfl, ho⟩, by rw [Eng.obj?_eq a1, a2]; rfl⟩
        rw [h.own hn he] at he
        exact ⟨_, _, _, he⟩
  · rintro ⟨t, o, e', ⟨w, a1, a2, a3, a4⟩, _⟩
    rw [a1, Option.any_some, a2, a3, a4]
    rfl

/-- The loops of `R'` do not have more rounds. -/
theorem Follows.rounds_le (hlf : Leaf d.main) (h : Course env d R N) (h' : Calmly env' d R' M) (tw : ∀ t, Follows p env env' d.main R R' N M t) :
    (List.range M).countP (fun m => loopsBack env' (R' m)) ≤ (List.range N).countP fun n => loopsBack env (R n) := by
  refine countP_le_of (F := fun m n => ∃ t, EvalAt env' (R' m) t ∧ EvalAt env (R n) t ∧ roundAt env R t n = roundAt env' R' t m) ?_ M _ ?_
  · rintro m m' n ⟨t, a1, ⟨o, e1, r, a2⟩, a3⟩ ⟨t', b1, ⟨o', e2, q, b2⟩, b3⟩
    have ht := (evaluates_fun a2 b2).2.1
    cases ht
    rcases Nat.lt_trichotomy m m' with hx | hx | hx
    · have := roundAt_lt a1 hx; omega
    · exact hx
    · have := roundAt_lt b1 hx; omega
  · intro m hm hx
    obtain ⟨t, o', f1, he'⟩ := (h'.loopsBack_iff hlf (Nat.le_of_lt hm)).1 hx
    obtain ⟨n, hn, ⟨o, e1, r, he⟩, hj⟩ := pairing h h' (tw t).both (m := m) (fun n hn j hj => (tw t).agree n hn j (by omega)) (Nat.le_of_lt hm)
      (h'.eval hm he').1
    have hr := ((tw t).agree n hn m hm o o' e1 f1 r _ he he' hj).again.2 rfl
    subst hr
    exact ⟨n, hn, (h.loopsBack_iff hlf (Nat.le_of_lt hn)).2 ⟨t, o, e1, he⟩, t, ⟨o', f1, _, he'⟩, ⟨o, e1, _, he⟩, hj⟩

end Flow.GraphM
