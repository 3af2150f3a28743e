import Verif.Proofs.SameFate
import Verif.Props.Graph
import Verif.Props.Returns

/-
C108: the data a flow computes do not depend on the order in which its tasks are executed.
-/

namespace Flow

open Spec GraphM GraphCase

variable {env env' : Env} {d : Def} {id id' uri uri' : String} {ins ins' : AMap String Val} {N N' : Nat} {I I' : Inst} {p : DataPlan}

/-- An execution of the flow. -/
abbrev runOf (env : Env) (id uri : String) (d : Def) (ins : AMap String Val) (n : Nat) : Eng := Eng.run env (Eng.init env id uri d ins) n

/-- Attributes that only one task writes change only when this task is executed. -/
theorem kept_of_writes (hw : ∀ k, p.data k → ∀ o t td, Writes env 0 o t td k → p.owner k = some t.id) : p.Kept env (runOf env id uri d ins) N := by
  intro m hm k hk hch
  obtain ⟨J, hJ⟩ := root_exists (env := env) (id := id) (uri := uri) (d := d) (ins := ins) m
  have hr : Reachable env (runOf env id uri d ins m) := ⟨id, uri, d, ins, m, rfl⟩
  obtain ⟨o, t, e', r, td, h1, _, h3⟩ := C82_changes hr hJ hch
  exact ⟨o, t, e', r, hw k hk o t td h3, h1⟩

/-- C108: two executions of a flow in which every task computes the same from the same data, started with the same data and completed,
execute the same tasks, with the same success, follow the same links and end with the same data, in whatever order the tasks are executed.

Partial: for main flows whose called flows, if any, end at most once and start no error handler, whose errors are all handled by error
links and that do not return early; the full statement is false for the error data that all failing tasks share (`C108_negation`). -/
theorem C108_data_partial (hset : SettingsOk env) (hset' : SettingsOk env') (hc : Covered d.main)
    (hsv : Leaf d.main ∨ Served (runOf env id uri d ins N) 0) (hsv' : Leaf d.main ∨ Served (runOf env' id' uri' d ins' N') 0)
    (hI : (runOf env id uri d ins N).insts[0]? = some I) (hI' : (runOf env' id' uri' d ins' N').insts[0]? = some I')
    (hu : Undisturbed I) (hu' : Undisturbed I') (hs : I.status = .completed) (hs' : I'.status = .completed)
    (hk : p.Kept env (runOf env id uri d ins) N) (hk' : p.Kept env' (runOf env' id' uri' d ins') N')
    (h0 : ∀ k, p.data k → attrAt (runOf env id uri d ins 0) 0 k = attrAt (runOf env' id' uri' d ins' 0) 0 k)
    (hf : p.Functional env env' d.main (runOf env id uri d ins) (runOf env' id' uri' d ins') N N') :
    (∀ t, Executed I.trace t ↔ Executed I'.trace t) ∧ (∀ l ∈ d.main.links, Followed I.trace l ↔ Followed I'.trace l) ∧
      (∀ t, HasStatus I t .done ↔ HasStatus I' t .done) ∧ (∀ t, HasStatus I t .failed ↔ HasStatus I' t .failed) ∧
      ∀ k, p.data k → attrAt (runOf env id uri d ins N) 0 k = attrAt (runOf env' id' uri' d ins' N') 0 k := by
  have h : Course env d (runOf env id uri d ins) N := ⟨⟨hset, ⟨id, uri, ins, fun _ => rfl⟩, hc, hsv, I, hI, hu⟩, I, hI, hs⟩
  have h' : Course env' d (runOf env' id' uri' d ins') N' := ⟨⟨hset', ⟨id', uri', ins', fun _ => rfl⟩, hc, hsv', I', hI', hu'⟩, I', hI', hs'⟩
  have tw := Follows.all h h'.toCalmly hk hk' h0 hf
  have tw' := Follows.all h' h.toCalmly hk' hk (fun k hd => (h0 k hd).symm) hf.symm
  have hex : ∀ t, Executed I.trace t ↔ Executed I'.trace t :=
    fun t => ⟨Follows.same_executed h' h tw' hI' hI t, Follows.same_executed h h' tw hI hI' t⟩
  refine ⟨hex, fun l hl => ⟨Follows.same_links h' h tw' hI' hI hl, Follows.same_links h h' tw hI hI' hl⟩, fun t => ?_, fun t => ?_,
    Follows.same_data h h' tw (fun t ht => (h'.executed_iff hI' t).1 ((hex t).1 ((h.executed_iff hI t).2 ht))) hk hk' h0⟩
  · rw [h.status hI (s := .done) (by decide), h'.status hI' (s := .done) (by decide)]
    exact ⟨Follows.same_ended h' h tw' t (Or.inl rfl), Follows.same_ended h h' tw t (Or.inl rfl)⟩
  · rw [h.status hI (s := .failed) (by decide), h'.status hI' (s := .failed) (by decide)]
    exact ⟨Follows.same_ended h' h tw' t (Or.inr rfl), Follows.same_ended h h' tw t (Or.inr rfl)⟩

/-- C108: if one execution of a flow completes, then every other execution in which every task computes the same from the same data, started
with the same data, completes as well, after a number of steps that depends on the size of the flow and the rounds of its loops only, with nothing left to do. It executes the same tasks with the
same success, follows the same links and ends with the same data.

Partial: see `C108_data_partial`; for main flows without called flows. -/
theorem C108_outcome_partial (hset : SettingsOk env) (hset' : SettingsOk env') (hc : Covered d.main) (hlf : Leaf d.main)
    (hne : d.main.tasks ≠ []) (hI : (runOf env id uri d ins N).insts[0]? = some I) (hu : Undisturbed I) (hs : I.status = .completed)
    (hN' : d.main.tasks.length * (d.main.links.length + 4) + loopRounds env (Eng.init env id uri d ins) N < N')
    (hk : p.Kept env (runOf env id uri d ins) N) (hk' : p.Kept env' (runOf env' id' uri' d ins') N')
    (h0 : ∀ k, p.data k → attrAt (runOf env id uri d ins 0) 0 k = attrAt (runOf env' id' uri' d ins' 0) 0 k)
    (hf : p.Functional env env' d.main (runOf env id uri d ins) (runOf env' id' uri' d ins') N N') :
    ∃ I', (runOf env' id' uri' d ins' N').insts[0]? = some I' ∧ Undisturbed I' ∧ I'.status = .completed ∧
      ((runOf env' id' uri' d ins' N').queue = [] ∧ (runOf env' id' uri' d ins' N').stack = []) ∧
      (∀ t, Executed I.trace t ↔ Executed I'.trace t) ∧ (∀ l ∈ d.main.links, Followed I.trace l ↔ Followed I'.trace l) ∧
      (∀ t, HasStatus I t .done ↔ HasStatus I' t .done) ∧ (∀ t, HasStatus I t .failed ↔ HasStatus I' t .failed) ∧
      ∀ k, p.data k → attrAt (runOf env id uri d ins N) 0 k = attrAt (runOf env' id' uri' d ins' N') 0 k := by
  have h : Course env d (runOf env id uri d ins) N := ⟨⟨hset, ⟨id, uri, ins, fun _ => rfl⟩, hc, Or.inl hlf, I, hI, hu⟩, I, hI, hs⟩
  have h' : Calmly env' d (runOf env' id' uri' d ins') N' := Calmly.always h hset' (fun _ => rfl) hk h0 N' (Or.inl hlf) hk' hf
  obtain ⟨I', G, hI', _, hu', hH⟩ := h'.state (Nat.le_refl N')
  have hl : loopRounds env' (Eng.init env' id' uri' d ins') N' ≤ loopRounds env (Eng.init env id uri d ins) N :=
    Follows.rounds_le hlf h h' (Follows.all h h' hk hk' h0 hf)
  have hs' := (C08_finishes_partial hset' hc hlf hne id' uri' ins' (Nat.lt_of_le_of_lt (Nat.add_le_add_left hl _) hN') hI' hu' fun t hw =>
    Calmly.no_wait h h' hk hk' h0 hf (Leaf.noSub hlf t) (by rw [mst_of hI', hH.1.tstat]; exact (hH.1.hasStatus (by decide)).1 hw))
  obtain ⟨hs', _, hq'⟩ := hs'
  exact ⟨I', hI', hu', hs', hq', C108_data_partial hset hset' hc (Or.inl hlf) (Or.inl hlf) hI hI' hu hu' hs hs' hk hk' h0 hf⟩

/-- C108 for flows that call other flows: if one execution completes, every other one of the same flow, in which every task computes the
same from the same data, does not fail and does not return early. When nothing of it is left to do and the flows it called have ended, it
is completed, has executed the same tasks, with the same success, has followed the same links and ends with the same data.

Partial: see `C108_data_partial`; that the called flows end is assumed, and that none of them starts its error handler. -/
theorem C108_called_partial (hset : SettingsOk env) (hset' : SettingsOk env') (hc : Covered d.main) (hsv : Served (runOf env id uri d ins N) 0)
    (hne : d.main.tasks ≠ []) (hI : (runOf env id uri d ins N).insts[0]? = some I) (hu : Undisturbed I) (hs : I.status = .completed)
    (hsv' : Served (runOf env' id' uri' d ins' N') 0) (hcalm : Calmed (runOf env' id' uri' d ins' N') 0)
    (hk : p.Kept env (runOf env id uri d ins) N) (hk' : p.Kept env' (runOf env' id' uri' d ins') N')
    (h0 : ∀ k, p.data k → attrAt (runOf env id uri d ins 0) 0 k = attrAt (runOf env' id' uri' d ins' 0) 0 k)
    (hf : p.Functional env env' d.main (runOf env id uri d ins) (runOf env' id' uri' d ins') N N') :
    ∃ I', (runOf env' id' uri' d ins' N').insts[0]? = some I' ∧ Undisturbed I' ∧
      ((runOf env' id' uri' d ins' N').stack = [] ∨ (runOf env' id' uri' d ins' N').cur ≠ 0 →
        (∀ w ∈ (runOf env' id' uri' d ins' N').queue, w.inst ≠ 0) →
        (∀ J ∈ (runOf env' id' uri' d ins' N').insts, ∀ o, J.host = some (0, o) → endings J ≠ 0) →
        I'.status = .completed ∧
        (∀ t, Executed I.trace t ↔ Executed I'.trace t) ∧ (∀ l ∈ d.main.links, Followed I.trace l ↔ Followed I'.trace l) ∧
        (∀ t, HasStatus I t .done ↔ HasStatus I' t .done) ∧ (∀ t, HasStatus I t .failed ↔ HasStatus I' t .failed) ∧
        ∀ k, p.data k → attrAt (runOf env id uri d ins N) 0 k = attrAt (runOf env' id' uri' d ins' N') 0 k) := by
  have h : Course env d (runOf env id uri d ins) N := ⟨⟨hset, ⟨id, uri, ins, fun _ => rfl⟩, hc, Or.inr hsv, I, hI, hu⟩, I, hI, hs⟩
  have h' : Calmly env' d (runOf env' id' uri' d ins') N' := Calmly.always h hset' (fun _ => rfl) hk h0 N' (Or.inr hsv') hk' hf
  obtain ⟨I', G, hI', hd', hu', hH⟩ := h'.state (Nat.le_refl N')
  refine ⟨I', hI', hu', fun hstk hq hends => ?_⟩
  have hs' : I'.status = .completed := by
    refine (C08_not_stuck_subflows_partial hset' (h'.reach N') hI' (by rw [hd']; exact hc) hu' hsv' hcalm (by rw [hd']; exact hne) hstk hq hends ?_).1
    intro td htd hact hw
    rw [hd'] at htd
    refine Calmly.no_wait h h' hk hk' h0 hf (t := td.id) ?_ (by rw [mst_of hI', hH.1.tstat]; exact (hH.1.hasStatus (by decide)).1 hw)
    rintro ⟨td2, h3, h4, h5⟩
    have h6 : td = td2 := task_unique hc.wf.tasks htd h3 h4.symm
    subst h6
    cases ha : td.act with
    | subflow uri => exact hact uri ha
    | _ => rw [ha] at h5; exact h5 rfl
  exact ⟨hs', C108_data_partial hset hset' hc (Or.inr hsv) (Or.inr hsv') hI hI' hu hu' hs hs' hk hk' h0 hf⟩

theorem _root_.Flow.Spec.DataPlan.Kept.mono {R : Nat → Eng} {n m : Nat} (h : p.Kept env R n) (hm : m ≤ n) : p.Kept env R m :=
  fun a ha => h a (Nat.lt_of_lt_of_le ha hm)

theorem _root_.Flow.Spec.DataPlan.Functional.mono {g : Graph} {R R' : Nat → Eng} {n n' m m' : Nat} (h : p.Functional env env' g R R' n n')
    (hm : m ≤ n) (hm' : m' ≤ n') : p.Functional env env' g R R' m m' :=
  fun a ha b hb => h a (Nat.lt_of_lt_of_le ha hm) b (Nat.lt_of_lt_of_le hb hm')

/-- An undisturbed flow has no error to return. -/
theorem undisturbed_noError {e : Eng} (hr : Reachable env e) {i : Nat} (hI : e.insts[i]? = some I) (hu : Undisturbed I) : I.returnError = none := by
  have hP : Eng.StableH (fun I => I.force = false → I.handling = false → I.status ≠ .failed ∧ I.returnError = none) := by
    constructor
    · intro I I' hc h; rw [hc.force, hc.handling, hc.status, hc.returnError]; exact h
    · intro o I I' hc h hf hh
      have hf0 : I.force = false := by
        cases h3 : I.force with
        | false => rfl
        | true => rw [hc.force h3] at hf; cases hf
      rw [hc.status, hc.err hf]
      exact h hf0 (hc.handling ▸ hh)
    · intro d uri k h a _ _; exact ⟨(fun h => nomatch h), rfl⟩
    · intro I h hf hh; exact ⟨(fun h => nomatch h), (h hf hh).2⟩
    · intro I _ h1 _ h2; rw [show (I.setFlowStatus .failed).handling = I.handling from rfl, h1] at h2; cases h2
    · intro I _ _ _ _ h; cases h
    · intro I _ _ _ _ h; cases h
    · intro I err h h1 hf hh; exact absurd h1 (h hf hh).1
  exact (hP.reachable hr i I hI hu.2 hu.1).2

theorem report_flags {c : RunCfg} {r : Run} {J : Inst} (hI : r.eng.insts[0]? = some I) (hJ : (r.report c).eng.insts[0]? = some J) :
    J.handling = I.handling ∧ J.force = I.force := by
  have hl : 0 < r.eng.insts.length := (List.getElem?_eq_some_iff.1 hI).1
  unfold Run.report at hJ
  rw [hI] at hJ
  dsimp only at hJ
  have fx : I.fixReturnData.handling = I.handling ∧ I.fixReturnData.force = I.force := by
    unfold Inst.fixReturnData
    split
    · exact ⟨rfl, rfl⟩
    · split <;> exact ⟨rfl, rfl⟩
  split at hJ
  · rw [hI] at hJ; cases hJ; exact ⟨rfl, rfl⟩
  · split at hJ
    · dsimp only at hJ
      rw [Eng.modI_getElem?, if_pos rfl, hI] at hJ
      cases hJ
      exact fx
    · rw [hI] at hJ; cases hJ; exact ⟨rfl, rfl⟩
    · rw [hI] at hJ; cases hJ; exact ⟨rfl, rfl⟩

theorem count_le (c : RunCfg) (e : Eng) (n : Nat) : (after env c e n).count ≤ (Run.start c e).count + n := by
  induction n with
  | zero => show (Run.start c e).count ≤ _; omega
  | succ n ih =>
    have key : ∀ r : Run, (r.step env c).count ≤ r.count + 1 := by
      intro r
      have hrep : (r.report c).count = r.count := by
        unfold Run.report
        split
        · rfl
        · split
          · rfl
          · split <;> rfl
      unfold Run.step
      split
      · omega
      · split
        · show r.count ≤ _; omega
        · split
          · omega
          · split
            · show r.count + 1 ≤ _; omega
            · omega
    have := key (after env c e n)
    show ((after env c e n).step env c).count ≤ _
    omega

/-- A run whose flow is completed with nothing left to do after `B + 1` steps, has ended after `B + 2` steps, unless it is stopped by the
limit. -/
theorem run_end {c : RunCfg} {e : Eng} (h : Started env e) {B : Nat} (hlim : (Run.start c e).count + B < c.limit) {K : Inst}
    (hK : (Eng.run env e (B + 1)).insts[0]? = some K) (hs : K.status = .completed) (hst : (Eng.run env e (B + 1)).stack = []) :
    ∃ m, (after env c e m).done = false ∧ m ≤ B + 1 ∧ after env c e (B + 2) = (after env c e m).report c ∧
      after env c e (m + 1) = (after env c e m).report c ∧ (Eng.run env e m).insts = (Eng.run env e (B + 1)).insts := by
  rcases h.cases c (B + 2) with ⟨_, h2⟩ | ⟨m, hm, h1, h2, h3, h4, h5, h6⟩
  · exfalso
    have h3 : (after env c e (B + 1)).done = false := by
      cases hd : (after env c e (B + 1)).done with
      | false => rfl
      | true =>
        have : after env c e (B + 2) = after env c e (B + 1) := Run.step_done hd
        rw [this, hd] at h2; cases h2
    have heng := after_eng h3
    have hrep : after env c e (B + 2) = (after env c e (B + 1)).report c := by
      show Run.step env c (after env c e (B + 1)) = _
      unfold Run.step
      rw [if_neg (by simp [h3]), heng, hst]
      dsimp only
      rw [hK]
      dsimp only
      rw [if_neg]
      unfold Run.goesOn
      rw [hs]
      simp
    rw [hrep, Run.report_done] at h2
    cases h2
  · have heng := after_eng h2
    refine ⟨m, h2, by omega, h3, h4, ?_⟩
    by_cases hmB : m = B + 1
    · rw [hmB]
    · have hl : 0 < (Eng.run env e m).insts.length := by rw [← heng]; exact h1.len
      have hsplit : Eng.run env e (B + 1) = Eng.run env (Eng.run env e m) (B + 1 - m) := by
        rw [← Eng.run_add]; congr 1; omega
      have hcnt := count_le (env := env) c e m
      obtain ⟨L, hL⟩ : ∃ L, (Eng.run env e m).insts[0]? = some L := ⟨_, List.getElem?_eq_getElem hl⟩
      have hfs : flowStatus (Eng.run env e m) 0 = some L.status := by unfold flowStatus; rw [hL]; rfl
      have hg := h6 L.status (by rw [heng]; exact hfs)
      unfold Run.goesOn at hg
      rw [decide_eq_true (by omega), Bool.and_true, Bool.and_eq_false_iff] at hg
      rw [hsplit]
      by_cases ha : L.status = .active
      · rcases hg with hg | hg
        · obtain ⟨w1, w2⟩ := h1.work hg
          rw [heng] at w1 w2
          rcases w2 with w2 | w2
          · rw [hfs, ha] at w2; exact absurd rfl w2
          · exact (idle_forever hl w1 w2 _).1.symm
        · rw [ha] at hg; cases hg
      · exact (over_forever hl (by rw [← heng]; exact h5) (by rw [hfs]; exact fun h => ha (Option.some.inj h)) _).1.symm

/-- A run ends once. -/
theorem end_unique {c : RunCfg} {e : Eng} {m n : Nat} (h1 : (after env c e m).done = false) (h2 : (after env c e (m + 1)).done = true)
    (h3 : (after env c e n).done = false) (h4 : (after env c e (n + 1)).done = true) : m = n := by
  have key : ∀ a k, (after env c e a).done = true → (after env c e (a + k)).done = true := by
    intro a k h
    induction k with
    | zero => exact h
    | succ k ih =>
      have : after env c e (a + (k + 1)) = after env c e (a + k) := Run.step_done ih
      rw [this]; exact ih
  rcases Nat.lt_trichotomy m n with h | h | h
  · have := key (m + 1) (n - (m + 1)) h2
    rw [show m + 1 + (n - (m + 1)) = n by omega, h3] at this; cases this
  · exact h
  · have := key (n + 1) (m - (n + 1)) h4
    rw [show n + 1 + (m - (n + 1)) = m by omega, h1] at this; cases this

theorem attrAt_insts {e f : Eng} (h : e.insts = f.insts) (i : Nat) (k : String) : attrAt e i k = attrAt f i k := by
  unfold attrAt; rw [h]

/-- C108, for the caller: if one run of a flow completes, then every other run in which every task computes the same from the same data,
started with the same data, ends after a number of steps that depends on the size of the flow and the rounds of its loops only, and completes. Each run delivers exactly
one result, without error, and the two results have the same outputs.

Partial: see `C108_outcome_partial`; no activity returns or replies, the declared outputs are among the data considered, and the step limit of the
second run is not less than a number that depends on the size of the flow and the rounds of its loops. -/
theorem C108_result_partial {c c' : RunCfg} {n : Nat} (hset : SettingsOk env) (hset' : SettingsOk env') (hc : Covered d.main) (hlf : Leaf d.main)
    (hne : d.main.tasks ≠ []) (hn : NoReturn env) (hn' : NoReturn env') (ho : (AMap.keys d.outputs).Nodup)
    (hdo : ∀ k ∈ AMap.keys d.outputs, p.data k) (hr : c.returnId = false) (hr' : c'.returnId = false)
    (hd : (after env c (Eng.init env id uri d ins) n).done = true) (hI : (after env c (Eng.init env id uri d ins) n).eng.insts[0]? = some I)
    (hu : Undisturbed I) (hs : I.status = .completed)
    (hlim : (Run.start c' (Eng.init env' id' uri' d ins')).count +
      (d.main.tasks.length * (d.main.links.length + 4) + loopRounds env (Eng.init env id uri d ins) n : Nat) < c'.limit)
    (hN' : N' = d.main.tasks.length * (d.main.links.length + 4) + loopRounds env (Eng.init env id uri d ins) n + 1)
    (hk : p.Kept env (runOf env id uri d ins) n) (hk' : p.Kept env' (runOf env' id' uri' d ins') N')
    (h0 : ∀ k, p.data k → attrAt (runOf env id uri d ins 0) 0 k = attrAt (runOf env' id' uri' d ins' 0) 0 k)
    (hf : p.Functional env env' d.main (runOf env id uri d ins) (runOf env' id' uri' d ins') n N') :
    ∃ x x', (after env' c' (Eng.init env' id' uri' d ins') (N' + 1)).done = true ∧
      flowStatus (after env' c' (Eng.init env' id' uri' d ins') (N' + 1)).eng 0 = some .completed ∧
      (after env c (Eng.init env id uri d ins) n).results = [x] ∧
      (after env' c' (Eng.init env' id' uri' d ins') (N' + 1)).results = [x'] ∧ x.err = none ∧ x'.err = none ∧
      (x.data = none ↔ x'.data = none) ∧ ∀ y y', x.data = some y → x'.data = some y' → ∀ k, AMap.get? y k = AMap.get? y' k := by
  have hst : Started env (Eng.init env id uri d ins) := ⟨id, uri, d, ins, rfl⟩
  have hst' : Started env' (Eng.init env' id' uri' d ins') := ⟨id', uri', d, ins', rfl⟩
  rcases hst.cases c n with ⟨_, h2⟩ | ⟨m, hm, h1, h2, h3, h4, _⟩
  · rw [h2] at hd; cases hd
  obtain ⟨I0, J, hI0, hJ, hstat, herr, _, _, _, r1, _⟩ := report_results (c := c) (r := after env c (Eng.init env id uri d ins) m) h1.len
  rw [h3] at hI
  rw [hJ] at hI; cases hI
  obtain ⟨f1, f2⟩ := report_flags hI0 hJ
  have hu0 : Undisturbed I0 := ⟨f1 ▸ hu.1, f2 ▸ hu.2⟩
  have hs0 : I0.status = .completed := hstat ▸ hs
  have hE := after_eng h2
  have hI0' := hI0
  rw [hE] at hI0'
  have hmono : loopRounds env (Eng.init env id uri d ins) m ≤ loopRounds env (Eng.init env id uri d ins) n := by
    unfold loopRounds
    exact List.Sublist.countP_le (List.range_sublist.2 (Nat.le_of_lt hm))
  obtain ⟨I', hI', hu', hs', ⟨_, hst2⟩, _, _, _, _, hdata⟩ := C108_outcome_partial hset hset' hc hlf hne hI0' hu0 hs0 (by omega)
    (hk.mono (Nat.le_of_lt hm)) hk' h0 (hf.mono (Nat.le_of_lt hm) (Nat.le_refl _))
  subst hN'
  obtain ⟨m', e1, e2, e3, e4, e5⟩ := run_end (c := c') hst' hlim hI' hs' hst2
  have hE' := after_eng e1
  have hL : (after env' c' (Eng.init env' id' uri' d ins') m').eng.insts[0]? = some I' := by rw [hE', e5]; exact hI'
  have hlen : 0 < (after env' c' (Eng.init env' id' uri' d ins') m').eng.insts.length := (List.getElem?_eq_some_iff.1 hL).1
  obtain ⟨I1, J', hI1, hJ', hstat', herr', _, _, _, r1', _⟩ := report_results (c := c') (r := after env' c' (Eng.init env' id' uri' d ins') m') hlen
  rw [hL] at hI1; cases hI1
  have hdone' : (after env' c' (Eng.init env' id' uri' d ins') (d.main.tasks.length * (d.main.links.length + 4) + loopRounds env (Eng.init env id uri d ins) n + 1 + 1)).done = true := by
    rw [e3, Run.report_done]
  have hfs' : flowStatus (after env' c' (Eng.init env' id' uri' d ins') (d.main.tasks.length * (d.main.links.length + 4) + loopRounds env (Eng.init env id uri d ins) n + 1 + 1)).eng 0 = some .completed := by
    rw [e3]; unfold flowStatus; rw [hJ']; show some J'.status = _; rw [hstat', hs']
  have hfs : flowStatus (after env c (Eng.init env id uri d ins) n).eng 0 = some .completed := by
    rw [h3]; unfold flowStatus; rw [hJ]; show some I.status = _; rw [hs]
  obtain ⟨a, x, a1, a2, a3, a4, a5⟩ := C101_declared_partial hn ho hr hd hfs
  obtain ⟨b, x', b1, b2, b3, b4, b5⟩ := C101_declared_partial hn' ho hr' hdone' hfs'
  have ham : a = m := end_unique a1 a2 h2 (by rw [h4, Run.report_done])
  have hbm : b = m' := end_unique b1 b2 e1 (by rw [e4, Run.report_done])
  subst ham hbm
  have hx : x.err = none := by
    have := (r1 hs0).2
    rw [← h3, a3] at this
    rw [(List.cons.inj this).1]
    show I.returnError = none
    rw [herr]
    exact undisturbed_noError ⟨id, uri, d, ins, a, rfl⟩ hI0' hu0
  have hx' : x'.err = none := by
    have := (r1' hs').2
    rw [← e3, b3] at this
    rw [(List.cons.inj this).1]
    show J'.returnError = none
    rw [herr']
    exact undisturbed_noError ⟨id', uri', d, ins', _, rfl⟩ hI' hu'
  refine ⟨x, x', hdone', hfs', a3, b3, hx, hx', ?_, ?_⟩
  · cases hh : d.hasOutputs with
    | false => rw [a4 hh, b4 hh]
    | true =>
      obtain ⟨y, y1, _⟩ := a5 hh
      obtain ⟨y', y1', _⟩ := b5 hh
      rw [y1, y1']; simp
  · intro y y' hy hy' k
    cases hh : d.hasOutputs with
    | false => rw [a4 hh] at hy; cases hy
    | true =>
      obtain ⟨z, z1, z2⟩ := a5 hh
      obtain ⟨z', z1', z2'⟩ := b5 hh
      rw [hy] at z1; cases z1
      rw [hy'] at z1'; cases z1'
      by_cases hkk : k ∈ AMap.keys d.outputs
      · cases hv : AMap.get? d.outputs k with
        | none => exact absurd hkk (AMap.get?_eq_none_iff.1 hv)
        | some v =>
          by_cases hnull : v = .null
          · subst hnull
            rw [z2.plain k hv, z2'.plain k hv, hE, hE', attrAt_insts e5]
            exact hdata k (hdo k hkk)
          · rw [z2.default k v hv hnull, z2'.default k v hv hnull]
      · rw [z2.undeclared k hkk, z2'.undeclared k hkk]

/-- S is followed by A and B, which is a loop; C joins them, depending on A and on a condition on what B has computed. The
outputs of the flow are z and y. -/
def gathers : Def :=
  { name := "f", main := ⟨[tk "S", tk "A", { tk "B" with retry := true, kind := .doWhile, loop := some { hasCondition := true } }, tk "C"], deps 0 [("S", "A"), ("S", "B"), ("A", "C")] ++ [⟨3, "B", "C", .expression, ""⟩]⟩
    hasOutputs := true, outputs := [("z", .null), ("y", .null)] }

/-- A number of the flow, as the activities read it. -/
def readInt (e : Eng) (k : String) : Int := (intAt e k).getD 0

/-- S sets s to 3, A sets x to s + 1, B adds s to y until y is at least 6, C sets z to x + y; C is reached from B if y is
positive. -/
def gathersEnv (pick : Eng → Nat) : Env :=
  { plainEnv with
    pick := pick
    cond := fun e _ _ => .ok (decide (readInt e "y" < 6))
    act := fun e i o =>
      if (e.obj? i o).map (·.task.id) = some "S" then { sets := [("s", .int 3)] }
      else if (e.obj? i o).map (·.task.id) = some "A" then { sets := [("x", .int (readInt e "s" + 1))] }
      else if (e.obj? i o).map (·.task.id) = some "B" then { sets := [("y", .int (readInt e "y" + readInt e "s"))] }
      else if (e.obj? i o).map (·.task.id) = some "C" then { sets := [("z", .int (readInt e "x" + readInt e "y"))] } else {}
    link := fun e _ l => .ok (l.id != 3 || decide (0 < readInt e "y")) }

/-- The oldest work item is taken first, or the newest. -/
def oldest : Env := gathersEnv fun _ => 0
def newest : Env := gathersEnv fun e => e.queue.length - 1

def gathersRun (env : Env) (n : Nat) : Eng := runOf env "1" "u" gathers [] n

theorem gathers_leaf : Leaf gathers.main := by
  intro t ht uri
  simp only [gathers, List.mem_cons, List.not_mem_nil, or_false] at ht
  rcases ht with rfl | rfl | rfl | rfl <;> exact fun h => nomatch h

def gathersRank (t : TaskId) : Nat := if t = "S" then 0 else if t = "C" then 2 else 1

theorem gathers_rank : ∀ l ∈ gathers.main.links, gathersRank l.src < gathersRank l.dst := by decide

theorem gathers_covered : Covered gathers.main where
  wf := ⟨by decide, by decide, by decide, by decide⟩
  acyclic := ⟨gathersRank, gathers_rank⟩
  order := by
    intro t
    by_cases ha : t = "S"
    · subst ha
      have hf : gathers.main.links.filter (fun l => l.src = "S") = [⟨0, "S", "A", .dependency, ""⟩, ⟨1, "S", "B", .dependency, ""⟩] := by decide
      rw [hf]
      have no : ∀ {a c : TaskId} {P : Prop}, a ≠ c → gathersRank c ≤ gathersRank a → Path gathers.main a c → P := fun h1 h2 h3 => by
        rcases path_rank gathers_rank h3 with h | h
        · exact absurd h h1
        · omega
      simp only [List.pairwise_cons, List.mem_cons, List.not_mem_nil, or_false, forall_eq, List.Pairwise.nil, and_true]
      refine ⟨⟨by decide, no (by decide) (by decide)⟩, ?_⟩
      exact fun _ h => nomatch h
    · have hl : (gathers.main.links.filter (fun l => l.src = t)).length ≤ 1 := by
        by_cases h1 : t = "A"
        · subst h1; decide
        · by_cases h2 : t = "B"
          · subst h2; decide
          · simp [gathers, deps, Ne.symm ha, Ne.symm h1, Ne.symm h2]
      exact pairwise_short _ hl
  sub := fun t ht uri h => absurd h (gathers_leaf t ht uri)

/-- The data of this flow and the tasks that compute them; n is an input. -/
def gathersPlan : DataPlan :=
  { data := fun k => k ∈ ["n", "s", "x", "y", "z"]
    owner := fun k => AMap.get? [("s", "S"), ("x", "A"), ("y", "B"), ("z", "C")] k }

theorem gathers_writes {pick : Eng → Nat} (k : String) (hk : gathersPlan.data k) (o : Nat) (t : TaskRef) (td : TaskDef)
    (h : Writes (gathersEnv pick) 0 o t td k) : gathersPlan.owner k = some t.id := by
  have hid : ∀ {c : Eng}, Holds c 0 o t → (c.obj? 0 o).map (·.task.id) = some t.id := fun {c} ⟨ob, h1, h2⟩ => by rw [h1, ← h2]; rfl
  have hne : ∀ l, k.toList ≠ '_' :: l := by
    intro l hl
    simp only [gathersPlan, List.mem_cons, List.not_mem_nil, or_false] at hk
    rcases hk with rfl | rfl | rfl | rfl | rfl <;> simp at hl
  cases h with
  | act c hc v h =>
    simp only [gathersEnv, hid hc, Option.some.injEq] at h
    split at h
    · rename_i ht
      simp only [AMap.get?] at h
      split at h
      · rename_i hk; subst hk; rw [ht]; rfl
      · cases h
    · split at h
      · rename_i ht
        simp only [AMap.get?] at h
        split at h
        · rename_i hk; subst hk; rw [ht]; rfl
        · cases h
      · split at h
        · rename_i ht
          simp only [AMap.get?] at h
          split at h
          · rename_i hk; subst hk; rw [ht]; rfl
          · cases h
        · split at h
          · rename_i ht
            simp only [AMap.get?] at h
            split at h
            · rename_i hk; subst hk; rw [ht]; rfl
            · cases h
          · cases h
  | post c hc v h => cases h
  | out c hc vals err v hv h => cases hv
  | accumulated ha h => subst h; exact absurd (by simp; rfl) (hne _)
  | error h => subst h; exact absurd (by rfl) (hne ['E'])
  | taskError h => subst h; exact absurd (by simp; rfl) (hne _)

/-- What the steps of the two executions execute. -/
theorem oldest_takes : ∀ m < 18, takes oldest (gathersRun oldest m) ≠ none →
    (m, takes oldest (gathersRun oldest m)) ∈ [(0, some "S"), (5, some "A"), (9, some "B"), (10, some "B"), (14, some "C")] := by
  decide +kernel

theorem newest_takes : ∀ m < 34, takes newest (gathersRun newest m) ≠ none →
    (m, takes newest (gathersRun newest m)) ∈ [(0, some "S"), (5, some "B"), (6, some "B"), (10, some "A"), (14, some "C")] := by
  decide +kernel

/-- Whether the evaluation of the next work item succeeds (`none`: it is to be followed by another round), whether it asks to end the flow, and
the value of y after it. -/
def evaluation (env : Env) (e : Eng) : Option (Option Bool × Bool × Int) :=
  (Spec.next env e).bind fun w => (outcome env (afterPop env e w) w.inst w.obj).map fun p =>
    ((match p.2 with | .res .done => some true | .res .again => none | _ => some false), p.1.insts[0]?.any (·.force), readInt p.1 "y")

theorem evaluation_of {e e1 : Eng} {o : Nat} {t : TaskRef} {r : Eng.EvalOut} (h : Evaluates env e 0 o t e1 r) {b : Bool} {y : Int}
    (hy : evaluation env e = some (if b then none else some true, false, y)) :
    r = .res (if b then .again else .done) ∧ (¬∃ I, e1.insts[0]? = some I ∧ I.force = true) ∧ readInt e1 "y" = y := by
  obtain ⟨⟨w, a1, a2, a3, a4⟩, a5⟩ := h
  unfold evaluation at hy
  rw [a1] at hy
  dsimp only [Option.bind_some] at hy
  rw [a2, a3, a4] at hy
  simp only [Option.map_some, Option.some.injEq, Prod.mk.injEq] at hy
  obtain ⟨h1, h2, h3⟩ := hy
  refine ⟨?_, fun ⟨I, hI, hf⟩ => ?_, h3⟩
  · cases b <;> dsimp at h1 <;> split at h1 <;> first | rfl | cases h1
  · rw [hI, Option.any_some, hf] at h2
    cases h2

/-- The task of the main flow that the next step evaluates. -/
def evaluated? (env : Env) (e : Eng) : Option (Bool × TaskId) :=
  (Spec.next env e).bind fun w => if w.inst = 0 then (outcome env (afterPop env e w) 0 w.obj).bind fun _ => (e.obj? 0 w.obj).map fun ob =>
    (ob.task.eh, ob.task.id) else none

theorem evalAt_of {e : Eng} {t : TaskId} (h : evaluated? env e = some (false, t)) : EvalAt env e t := by
  unfold evaluated? at h
  cases hw : Spec.next env e with
  | none => rw [hw] at h; cases h
  | some w =>
    rw [hw] at h
    dsimp only [Option.bind_some] at h
    split at h
    · rename_i h0
      cases ho : outcome env (afterPop env e w) 0 w.obj with
      | none => rw [ho] at h; cases h
      | some q =>
        rw [ho] at h
        dsimp only [Option.bind_some] at h
        cases hob : e.obj? 0 w.obj with
        | none => rw [hob] at h; cases h
        | some ob =>
          rw [hob] at h
          simp only [Option.map_some, Option.some.injEq, Prod.mk.injEq] at h
          refine ⟨w.obj, q.1, q.2, ⟨w, hw, h0, rfl, ho⟩, ?_⟩
          rw [hob, ← h.1, ← h.2]; rfl
    · cases h

theorem attrAt_of_int {e : Eng} {k : String} {n : Int} (h : intAt e k = some n) : attrAt e 0 k = some (.int n) := by
  unfold intAt at h
  cases ha : attrAt e 0 k with
  | none => rw [ha] at h; cases h
  | some v => rw [ha] at h; cases v <;> simp at h <;> rw [h]

theorem gathers_agree {t k0 : String} {m m' o o' : Nat} {e1 f1 : Eng} {r q : Eng.EvalOut} {b : Bool} {y y' x : Int}
    (he : Evaluates oldest (gathersRun oldest m) 0 o ⟨false, t⟩ e1 r) (hf : Evaluates newest (gathersRun newest m') 0 o' ⟨false, t⟩ f1 q)
    (h1 : evaluation oldest (gathersRun oldest m) = some (if b then none else some true, false, y))
    (h2 : evaluation newest (gathersRun newest m') = some (if b then none else some true, false, y'))
    (hy : t = "B" → y = y') (hk : ∀ k, gathersPlan.data k → gathersPlan.owner k = some t → k = k0)
    (h3 : intAt (gathersRun oldest (m + 1)) k0 = some x) (h4 : intAt (gathersRun newest (m' + 1)) k0 = some x) :
    gathersPlan.Agree oldest newest gathers.main t (gathersRun oldest m) e1 r (gathersRun newest m') f1 q := by
  obtain ⟨rfl, hnr, hr⟩ := evaluation_of he h1
  obtain ⟨rfl, hnq, hq⟩ := evaluation_of hf h2
  refine ⟨Iff.rfl, ⟨fun ⟨_, h⟩ => (nomatch h), fun ⟨_, h⟩ => (nomatch h)⟩, Iff.rfl, ⟨fun h => absurd h hnr, fun h => absurd h hnq⟩, ?_, ?_⟩
  · intro k hd ho
    rw [hk k hd ho, show Eng.step oldest (gathersRun oldest m) = gathersRun oldest (m + 1) from rfl,
      show Eng.step newest (gathersRun newest m') = gathersRun newest (m' + 1) from rfl, attrAt_of_int h3, attrAt_of_int h4]
  · intro _ l hl
    show ExprOut.ok (l.id != 3 || decide (0 < readInt e1 "y")) = .ok (l.id != 3 || decide (0 < readInt f1 "y"))
    rw [hr, hq]
    by_cases ht : t = "B"
    · rw [hy ht]
    · have h5 : ∀ l ∈ gathers.main.links, l.id = 3 → l.src = "B" := by decide
      have h6 := List.mem_filter.1 hl
      have h7 : l.id ≠ 3 := fun hc => ht ((of_decide_eq_true h6.2).symm.trans (h5 l h6.1 hc))
      have h8 : (l.id != 3) = true := bne_iff_ne.2 h7
      rw [h8, Bool.true_or, Bool.true_or]

/-- The first evaluation. -/
theorem round_zero {env : Env} {t : TaskId} {m : Nat} (h : ∀ n < m, takes env (gathersRun env n) ≠ some t) : roundAt env (gathersRun env) t m = 0 := by
  apply Classical.byContradiction
  intro hc
  obtain ⟨n, h1, ⟨o, e1, r, h2⟩, _⟩ := round_exists (Nat.pos_of_ne_zero hc)
  exact h n h1 (takes_of h2)

theorem round_pos {env : Env} {t : TaskId} {n m : Nat} (h : evaluated? env (gathersRun env n) = some (false, t)) (hnm : n < m) :
    roundAt env (gathersRun env) t m ≠ 0 := by
  have := roundAt_lt (R := gathersRun env) (evalAt_of h) hnm
  omega

theorem gathers_functional : gathersPlan.Functional oldest newest gathers.main (gathersRun oldest) (gathersRun newest) 18 34 := by
  intro m hm m' hm' t o o' e1 f1 r q he hf hj _
  have h1 := oldest_takes m hm
  have h2 := newest_takes m' hm'
  rw [takes_of he] at h1
  rw [takes_of hf] at h2
  have h3 := h1 (fun h => nomatch h)
  have h4 := h2 (fun h => nomatch h)
  simp only [List.mem_cons, Prod.mk.injEq, List.not_mem_nil, or_false, Option.some.injEq] at h3 h4
  have hk : ∀ t k0, (t, k0) ∈ [("S", "s"), ("A", "x"), ("B", "y"), ("C", "z")] → ∀ k, gathersPlan.data k → gathersPlan.owner k = some t → k = k0 := by
    intro t k0 ht k hd ho
    simp only [gathersPlan, List.mem_cons, List.not_mem_nil, or_false] at hd
    simp only [List.mem_cons, Prod.mk.injEq, List.not_mem_nil, or_false] at ht
    rcases hd with rfl | rfl | rfl | rfl | rfl <;> rcases ht with ⟨rfl, rfl⟩ | ⟨rfl, rfl⟩ | ⟨rfl, rfl⟩ | ⟨rfl, rfl⟩ <;>
      first | rfl | exact absurd ho (by decide)
  rcases h3 with ⟨rfl, rfl⟩ | ⟨rfl, rfl⟩ | ⟨rfl, rfl⟩ | ⟨rfl, rfl⟩ | ⟨rfl, rfl⟩
  · obtain rfl : m' = 0 := by simpa using h4
    exact gathers_agree (b := false) (y := 0) (y' := 0) (x := 3) he hf (by decide +kernel) (by decide +kernel) (by decide) (hk _ "s" (by decide))
      (by decide +kernel) (by decide +kernel)
  · obtain rfl : m' = 10 := by simpa using h4
    exact gathers_agree (b := false) (y := 0) (y' := 6) (x := 4) he hf (by decide +kernel) (by decide +kernel) (by decide) (hk _ "x" (by decide))
      (by decide +kernel) (by decide +kernel)
  · have h5 : m' = 5 ∨ m' = 6 := by simpa using h4
    rcases h5 with rfl | rfl
    · exact gathers_agree (b := true) (y := 3) (y' := 3) (x := 3) he hf (by decide +kernel) (by decide +kernel) (by decide) (hk _ "y" (by decide))
        (by decide +kernel) (by decide +kernel)
    · rw [round_zero (by decide +kernel)] at hj
      exact absurd hj.symm (round_pos (n := 5) (by decide +kernel) (by decide))
  · have h5 : m' = 5 ∨ m' = 6 := by simpa using h4
    rcases h5 with rfl | rfl
    · rw [round_zero (env := newest) (by decide +kernel)] at hj
      exact absurd hj (round_pos (n := 9) (by decide +kernel) (by decide))
    · exact gathers_agree (b := false) (y := 6) (y' := 6) (x := 6) he hf (by decide +kernel) (by decide +kernel) (by decide) (hk _ "y" (by decide))
        (by decide +kernel) (by decide +kernel)
  · obtain rfl : m' = 14 := by simpa using h4
    exact gathers_agree (b := false) (y := 6) (y' := 6) (x := 10) he hf (by decide +kernel) (by decide +kernel) (by decide) (hk _ "z" (by decide))
      (by decide +kernel) (by decide +kernel)

/-- The example: the two executions execute A and B in different orders and end with the same data. -/
theorem gathers_same : ∃ I I', (gathersRun oldest 18).insts[0]? = some I ∧ (gathersRun newest 18).insts[0]? = some I' ∧
    (∀ t, Executed I.trace t ↔ Executed I'.trace t) ∧ ∀ k, gathersPlan.data k → attrAt (gathersRun oldest 18) 0 k = attrAt (gathersRun newest 18) 0 k := by
  obtain ⟨I, hI⟩ := root_exists (env := oldest) (id := "1") (uri := "u") (d := gathers) (ins := []) 18
  obtain ⟨I', hI'⟩ := root_exists (env := newest) (id := "1") (uri := "u") (d := gathers) (ins := []) 18
  have h1 : ((gathersRun oldest 18).insts[0]?.map fun I => (I.handling, I.force, I.status)) = some (false, false, .completed) := by decide +kernel
  have h2 : ((gathersRun newest 18).insts[0]?.map fun I => (I.handling, I.force, I.status)) = some (false, false, .completed) := by decide +kernel
  rw [show gathersRun oldest 18 = Eng.run oldest (Eng.init oldest "1" "u" gathers []) 18 from rfl, hI] at h1
  rw [show gathersRun newest 18 = Eng.run newest (Eng.init newest "1" "u" gathers []) 18 from rfl, hI'] at h2
  simp only [Option.map_some, Option.some.injEq, Prod.mk.injEq] at h1 h2
  have hs : SettingsOk oldest := fun _ _ _ => rfl
  have hs' : SettingsOk newest := fun _ _ _ => rfl
  have h := C108_data_partial hs hs' gathers_covered (Or.inl gathers_leaf) (Or.inl gathers_leaf) hI hI' ⟨h1.1, h1.2.1⟩ ⟨h2.1, h2.2.1⟩ h1.2.2 h2.2.2
    (kept_of_writes gathers_writes)
    (kept_of_writes gathers_writes) (fun k _ => rfl)
    fun m hm m' hm' => gathers_functional m hm m' (by omega)
  exact ⟨I, I', hI, hI', h.1, h.2.2.2.2⟩

-- the hypotheses of `C108_outcome_partial`: only the first of the two executions is known to complete
example : ∃ I', (gathersRun newest 34).insts[0]? = some I' ∧ Undisturbed I' ∧ I'.status = .completed ∧
    ∀ k, gathersPlan.data k → attrAt (gathersRun oldest 18) 0 k = attrAt (gathersRun newest 34) 0 k := by
  obtain ⟨I, hI⟩ := root_exists (env := oldest) (id := "1") (uri := "u") (d := gathers) (ins := []) 18
  have h1 : ((gathersRun oldest 18).insts[0]?.map fun I => (I.handling, I.force, I.status)) = some (false, false, .completed) := by decide +kernel
  rw [show gathersRun oldest 18 = Eng.run oldest (Eng.init oldest "1" "u" gathers []) 18 from rfl, hI] at h1
  simp only [Option.map_some, Option.some.injEq, Prod.mk.injEq] at h1
  have hs : SettingsOk oldest := fun _ _ _ => rfl
  have hs' : SettingsOk newest := fun _ _ _ => rfl
  obtain ⟨I', h2, h3, h4, _, _, _, _, _, h5⟩ := C108_outcome_partial (env' := newest) (id' := "1") (uri' := "u") (ins' := [])
    (N' := 34) hs hs' gathers_covered gathers_leaf
    (fun h => nomatch h) hI ⟨h1.1, h1.2.1⟩ h1.2.2 (by decide +kernel) (kept_of_writes gathers_writes) (kept_of_writes gathers_writes) (fun k _ => rfl)
    gathers_functional
  exact ⟨I', h2, h3, h4, h5⟩

theorem gathers_noReturn {pick : Eng → Nat} : NoReturn (gathersEnv pick) := by
  intro e i o
  refine ⟨?_, rfl, rfl⟩
  simp only [gathersEnv]
  split
  · exact ⟨rfl, rfl⟩
  · split
    · exact ⟨rfl, rfl⟩
    · split
      · exact ⟨rfl, rfl⟩
      · split <;> exact ⟨rfl, rfl⟩

/-- The run of the flow by a caller. -/
def gathersAction (env : Env) (n : Nat) : Run := after env { limit := 100 } (Eng.init env "1" "u" gathers []) n

-- the hypotheses of `C108_result_partial`, and the results
example : ∃ x x', (gathersAction oldest 18).results = [x] ∧ (gathersAction newest 35).results = [x'] ∧
    ∀ y y', x.data = some y → x'.data = some y' → ∀ k, AMap.get? y k = AMap.get? y' k := by
  have h1 : ((gathersAction oldest 18).eng.insts[0]?.map fun I => (I.handling, I.force, I.status)) = some (false, false, .completed) := by decide +kernel
  have hd : (gathersAction oldest 18).done = true := by decide +kernel
  cases hI : (gathersAction oldest 18).eng.insts[0]? with
  | none => rw [hI] at h1; cases h1
  | some I =>
    rw [hI] at h1
    simp only [Option.map_some, Option.some.injEq, Prod.mk.injEq] at h1
    have hs : SettingsOk oldest := fun _ _ _ => rfl
    have hs' : SettingsOk newest := fun _ _ _ => rfl
    obtain ⟨x, x', _, _, h2, h3, _, _, _, h4⟩ := C108_result_partial (env' := newest) (id' := "1") (uri' := "u") (ins' := []) (p := gathersPlan)
      (c := { limit := 100 }) (c' := { limit := 100 }) (N' := 34) hs hs' gathers_covered gathers_leaf (fun h => nomatch h)
      gathers_noReturn gathers_noReturn (by decide) (by unfold gathersPlan; decide) rfl rfl hd hI ⟨h1.1, h1.2.1⟩ h1.2.2 (by decide +kernel) (by decide +kernel)
      (kept_of_writes gathers_writes) (kept_of_writes gathers_writes) (fun k _ => rfl) gathers_functional
    exact ⟨x, x', h2, h3, h4⟩

example : (gathersAction newest 35).results.map (fun x => x.data.bind fun m => (AMap.get? m "z").bind number?) = [some 10] := by decide +kernel

example : ([5, 10].map fun n => (takes oldest (gathersRun oldest n), takes newest (gathersRun newest n))) =
    [(some "A", some "B"), (some "B", some "A")] ∧ intAt (gathersRun newest 18) "z" = some 10 := by decide +kernel

/-- P, which calls the flow "s", and Q have no incoming links; both lead to J. -/
def hires : Def :=
  { name := "f", main := ⟨[{ tk "P" with act := .subflow "s" }, tk "Q", tk "J"], deps 0 [("P", "J"), ("Q", "J")]⟩ }

/-- The called flow returns 5 as r; the output mapping of P sets p to it. Q sets q to 2, J sets j to p + q. -/
def hiresEnv (pick : Eng → Nat) : Env :=
  { plainEnv with
    pick := pick
    defs := fun u => if u = "s" then .ok (some { name := "s", main := ⟨[tk "T"], []⟩ }) else .ok none
    outMap := fun e i o => if (e.obj? i o).map (·.task.id) = some "P" then
      some ([("p", (AMap.get? (((e.obj? i o).bind (·.outputs)).getD []) "r").getD .null)], none) else none
    act := fun e i o =>
      if (e.obj? i o).map (·.task.id) = some "T" then { ret := some (some [("r", .int 5)], none) }
      else if (e.obj? i o).map (·.task.id) = some "Q" then { sets := [("q", .int 2)] }
      else if (e.obj? i o).map (·.task.id) = some "J" then { sets := [("j", .int (readInt e "p" + readInt e "q"))] } else {} }

def hiresOld : Env := hiresEnv fun _ => 0
def hiresNew : Env := hiresEnv fun e => e.queue.length - 1

def hiresRun (env : Env) (n : Nat) : Eng := runOf env "1" "u" hires [] n

theorem hires_covered : Covered hires.main where
  wf := ⟨by decide, by decide, by decide, by decide⟩
  acyclic := ⟨fun t => if t = "J" then 1 else 0, by decide⟩
  order := by
    intro t
    apply pairwise_short
    by_cases h1 : t = "P"
    · subst h1; decide
    · by_cases h2 : t = "Q"
      · subst h2; decide
      · simp [hires, deps, Ne.symm h1, Ne.symm h2]
  sub := by
    intro t ht uri
    simp only [hires, List.mem_cons, List.not_mem_nil, or_false] at ht
    rcases ht with rfl | rfl | rfl <;> exact fun _ => rfl

def hiresPlan : DataPlan :=
  { data := fun k => k ∈ ["p", "q", "j"]
    owner := fun k => AMap.get? [("p", "P"), ("q", "Q"), ("j", "J")] k }

theorem hires_writes {pick : Eng → Nat} (k : String) (hk : hiresPlan.data k) (o : Nat) (t : TaskRef) (td : TaskDef)
    (h : Writes (hiresEnv pick) 0 o t td k) : hiresPlan.owner k = some t.id := by
  have hid : ∀ {c : Eng}, Holds c 0 o t → (c.obj? 0 o).map (·.task.id) = some t.id := fun {c} ⟨ob, h1, h2⟩ => by rw [h1, ← h2]; rfl
  have hne : ∀ l, k.toList ≠ '_' :: l := by
    intro l hl
    simp only [hiresPlan, List.mem_cons, List.not_mem_nil, or_false] at hk
    rcases hk with rfl | rfl | rfl <;> simp at hl
  cases h with
  | act c hc v h =>
    simp only [hiresEnv, hid hc, Option.some.injEq] at h
    split at h
    · cases h
    · split at h
      · rename_i ht
        simp only [AMap.get?] at h
        split at h
        · rename_i hk; subst hk; rw [ht]; rfl
        · cases h
      · split at h
        · rename_i ht
          simp only [AMap.get?] at h
          split at h
          · rename_i hk; subst hk; rw [ht]; rfl
          · cases h
        · cases h
  | post c hc v h => cases h
  | out c hc vals err v hv h =>
    simp only [hiresEnv, hid hc, Option.some.injEq] at hv
    split at hv
    · rename_i ht
      simp only [Option.some.injEq, Prod.mk.injEq] at hv
      rw [← hv.1] at h
      simp only [AMap.get?] at h
      split at h
      · rename_i hk; subst hk; rw [ht]; rfl
      · cases h
    · cases hv
  | accumulated ha h => subst h; exact absurd (by simp; rfl) (hne _)
  | error h => subst h; exact absurd (by rfl) (hne ['E'])
  | taskError h => subst h; exact absurd (by simp; rfl) (hne _)

theorem evaluated_of {e e1 : Eng} {o : Nat} {t : TaskId} {r : Eng.EvalOut} (h : Evaluates env e 0 o ⟨false, t⟩ e1 r) :
    evaluated? env e = some (false, t) := by
  obtain ⟨⟨w, a1, a2, a3, a4⟩, a5⟩ := h
  unfold evaluated?
  rw [a1]
  dsimp only [Option.bind_some]
  rw [if_pos a2, a3, a4]
  dsimp only [Option.bind_some]
  cases hob : e.obj? 0 o with
  | none => rw [hob] at a5; cases a5
  | some ob =>
    rw [hob] at a5
    simp only [Option.map_some, Option.some.injEq] at a5
    rw [Option.map_some, a5]

theorem round_first {R : Nat → Eng} {t : TaskId} {m : Nat} (h : ∀ n < m, evaluated? env (R n) ≠ some (false, t)) : roundAt env R t m = 0 := by
  apply Classical.byContradiction
  intro hc
  obtain ⟨n, h1, ⟨o, e1, r, h2⟩, _⟩ := round_exists (Nat.pos_of_ne_zero hc)
  exact h n h1 (evaluated_of h2)

theorem round_later {R : Nat → Eng} {t : TaskId} {n m : Nat} (h : evaluated? env (R n) = some (false, t)) (hnm : n < m) :
    roundAt env R t m ≠ 0 := by
  have := roundAt_lt (R := R) (evalAt_of h) hnm
  omega

theorem hiresOld_evaluated : ∀ m < 15, (evaluated? hiresOld (hiresRun hiresOld m)).isSome →
    (m, (evaluated? hiresOld (hiresRun hiresOld m)).map (·.2)) ∈ [(0, some "P"), (1, some "Q"), (7, some "P"), (11, some "J")] := by
  decide +kernel

theorem hiresNew_evaluated : ∀ m < 15, (evaluated? hiresNew (hiresRun hiresNew m)).isSome →
    (m, (evaluated? hiresNew (hiresRun hiresNew m)).map (·.2)) ∈ [(0, some "Q"), (4, some "P"), (7, some "P"), (11, some "J")] := by
  decide +kernel

/-- How the evaluation of the next work item ends (2: completed, 1: waiting, 0: otherwise), and whether it asks to end the flow. -/
def ending (env : Env) (e : Eng) : Option (Nat × Bool) :=
  (Spec.next env e).bind fun w => (outcome env (afterPop env e w) w.inst w.obj).map fun p =>
    ((match p.2 with | .res .done => 2 | .res .wait => 1 | _ => 0), p.1.insts[0]?.any (·.force))

theorem ending_of {e e1 : Eng} {o : Nat} {t : TaskRef} {r : Eng.EvalOut} (h : Evaluates env e 0 o t e1 r) {b : Bool}
    (hy : ending env e = some (if b then 2 else 1, false)) :
    r = .res (if b then .done else .wait) ∧ ¬∃ I, e1.insts[0]? = some I ∧ I.force = true := by
  obtain ⟨⟨w, a1, a2, a3, a4⟩, a5⟩ := h
  unfold ending at hy
  rw [a1] at hy
  dsimp only [Option.bind_some] at hy
  rw [a2, a3, a4] at hy
  simp only [Option.map_some, Option.some.injEq, Prod.mk.injEq] at hy
  obtain ⟨h1, h2⟩ := hy
  refine ⟨?_, fun ⟨I, hI, hf⟩ => ?_⟩
  · cases b <;> dsimp at h1 <;> split at h1 <;> first | rfl | cases h1
  · rw [hI, Option.any_some, hf] at h2
    cases h2

theorem hires_agree {t k0 : String} {m m' o o' : Nat} {e1 f1 : Eng} {r q : Eng.EvalOut} {b : Bool} {x : Option Int}
    (he : Evaluates hiresOld (hiresRun hiresOld m) 0 o ⟨false, t⟩ e1 r) (hf : Evaluates hiresNew (hiresRun hiresNew m') 0 o' ⟨false, t⟩ f1 q)
    (h1 : ending hiresOld (hiresRun hiresOld m) = some (if b then 2 else 1, false))
    (h2 : ending hiresNew (hiresRun hiresNew m') = some (if b then 2 else 1, false))
    (hk : ∀ k, hiresPlan.data k → hiresPlan.owner k = some t → k = k0)
    (h3 : attrAt (hiresRun hiresOld (m + 1)) 0 k0 = x.map Val.int) (h4 : attrAt (hiresRun hiresNew (m' + 1)) 0 k0 = x.map Val.int) :
    hiresPlan.Agree hiresOld hiresNew hires.main t (hiresRun hiresOld m) e1 r (hiresRun hiresNew m') f1 q := by
  obtain ⟨rfl, hnr⟩ := ending_of he h1
  obtain ⟨rfl, hnq⟩ := ending_of hf h2
  refine ⟨Iff.rfl, ⟨fun ⟨_, h⟩ => (nomatch h), fun ⟨_, h⟩ => (nomatch h)⟩, Iff.rfl, ⟨fun h => absurd h hnr, fun h => absurd h hnq⟩, ?_, fun _ _ _ => rfl⟩
  intro k hd ho
  rw [hk k hd ho, show Eng.step hiresOld (hiresRun hiresOld m) = hiresRun hiresOld (m + 1) from rfl,
    show Eng.step hiresNew (hiresRun hiresNew m') = hiresRun hiresNew (m' + 1) from rfl, h3, h4]

/-- The attribute is not set yet. -/
theorem attrAt_unset {e : Eng} {k : String} (h : (attrAt e 0 k).isNone = true) : attrAt e 0 k = (none : Option Int).map Val.int := by
  simpa using h

theorem hires_functional : hiresPlan.Functional hiresOld hiresNew hires.main (hiresRun hiresOld) (hiresRun hiresNew) 15 15 := by
  intro m hm m' hm' t o o' e1 f1 r q he hf hj _
  have h1 := hiresOld_evaluated m hm
  have h2 := hiresNew_evaluated m' hm'
  rw [evaluated_of he] at h1
  rw [evaluated_of hf] at h2
  have h3 := h1 rfl
  have h4 := h2 rfl
  simp only [List.mem_cons, Prod.mk.injEq, List.not_mem_nil, or_false, Option.map_some, Option.some.injEq] at h3 h4
  have hk : ∀ t k0, (t, k0) ∈ [("P", "p"), ("Q", "q"), ("J", "j")] → ∀ k, hiresPlan.data k → hiresPlan.owner k = some t → k = k0 := by
    intro t k0 ht k hd ho
    simp only [hiresPlan, List.mem_cons, List.not_mem_nil, or_false] at hd
    simp only [List.mem_cons, Prod.mk.injEq, List.not_mem_nil, or_false] at ht
    rcases hd with rfl | rfl | rfl <;> rcases ht with ⟨rfl, rfl⟩ | ⟨rfl, rfl⟩ | ⟨rfl, rfl⟩ <;>
      first | rfl | exact absurd ho (by decide)
  rcases h3 with ⟨rfl, rfl⟩ | ⟨rfl, rfl⟩ | ⟨rfl, rfl⟩ | ⟨rfl, rfl⟩
  · have h5 : m' = 4 ∨ m' = 7 := by simpa using h4
    rcases h5 with rfl | rfl
    · exact hires_agree (b := false) (x := none) he hf (by decide +kernel) (by decide +kernel) (hk _ "p" (by decide))
        (attrAt_unset (by decide +kernel)) (attrAt_unset (by decide +kernel))
    · rw [round_first (by decide +kernel)] at hj
      exact absurd hj.symm (round_later (n := 4) (by decide +kernel) (by decide))
  · obtain rfl : m' = 0 := by simpa using h4
    exact hires_agree (b := true) (x := some 2) he hf (by decide +kernel) (by decide +kernel) (hk _ "q" (by decide))
      (attrAt_of_int (by decide +kernel)) (attrAt_of_int (by decide +kernel))
  · have h5 : m' = 4 ∨ m' = 7 := by simpa using h4
    rcases h5 with rfl | rfl
    · rw [round_first (env := hiresNew) (by decide +kernel)] at hj
      exact absurd hj (round_later (n := 0) (by decide +kernel) (by decide))
    · exact hires_agree (b := true) (x := some 5) he hf (by decide +kernel) (by decide +kernel) (hk _ "p" (by decide))
        (attrAt_of_int (by decide +kernel)) (attrAt_of_int (by decide +kernel))
  · obtain rfl : m' = 11 := by simpa using h4
    exact hires_agree (b := true) (x := some 7) he hf (by decide +kernel) (by decide +kernel) (hk _ "j" (by decide))
      (attrAt_of_int (by decide +kernel)) (attrAt_of_int (by decide +kernel))

-- the hypotheses of `C108_data_partial` for a flow that calls another flow: while it runs, or after it was started, Q is executed
example : ∃ I I', (hiresRun hiresOld 15).insts[0]? = some I ∧ (hiresRun hiresNew 15).insts[0]? = some I' ∧
    (∀ t, Executed I.trace t ↔ Executed I'.trace t) ∧ ∀ k, hiresPlan.data k → attrAt (hiresRun hiresOld 15) 0 k = attrAt (hiresRun hiresNew 15) 0 k := by
  obtain ⟨I, hI⟩ := root_exists (env := hiresOld) (id := "1") (uri := "u") (d := hires) (ins := []) 15
  obtain ⟨I', hI'⟩ := root_exists (env := hiresNew) (id := "1") (uri := "u") (d := hires) (ins := []) 15
  have h1 : (hiresRun hiresOld 15).insts.map summary =
      [(none, false, false, 1, false, .completed), (some (0, 0), false, true, 1, false, .completed)] := by decide +kernel
  have h2 : (hiresRun hiresNew 15).insts.map summary =
      [(none, false, false, 1, false, .completed), (some (0, 0), false, true, 1, false, .completed)] := by decide +kernel
  have hv := served_of (e := hiresRun hiresOld 15) (i := 0) (by rw [h1]; decide)
  have hv' := served_of (e := hiresRun hiresNew 15) (i := 0) (by rw [h2]; decide)
  have h3 : ((hiresRun hiresOld 15).insts[0]?.map fun I => (I.handling, I.force, I.status)) = some (false, false, .completed) := by decide +kernel
  have h4 : ((hiresRun hiresNew 15).insts[0]?.map fun I => (I.handling, I.force, I.status)) = some (false, false, .completed) := by decide +kernel
  rw [show hiresRun hiresOld 15 = Eng.run hiresOld (Eng.init hiresOld "1" "u" hires []) 15 from rfl, hI] at h3
  rw [show hiresRun hiresNew 15 = Eng.run hiresNew (Eng.init hiresNew "1" "u" hires []) 15 from rfl, hI'] at h4
  simp only [Option.map_some, Option.some.injEq, Prod.mk.injEq] at h3 h4
  have h := C108_data_partial (fun _ _ _ => rfl) (fun _ _ _ => rfl) hires_covered (Or.inr hv.1) (Or.inr hv'.1) hI hI' ⟨h3.1, h3.2.1⟩ ⟨h4.1, h4.2.1⟩
    h3.2.2 h4.2.2 (kept_of_writes hires_writes) (kept_of_writes hires_writes) (fun k _ => rfl) hires_functional
  exact ⟨I, I', hI, hI', h.1, h.2.2.2.2⟩

-- the hypotheses of `C108_called_partial`: of the second execution it is only known that it has come to rest
example : ∃ I', (hiresRun hiresNew 15).insts[0]? = some I' ∧ Undisturbed I' ∧ I'.status = .completed ∧
    ∀ k, hiresPlan.data k → attrAt (hiresRun hiresOld 15) 0 k = attrAt (hiresRun hiresNew 15) 0 k := by
  obtain ⟨I, hI⟩ := root_exists (env := hiresOld) (id := "1") (uri := "u") (d := hires) (ins := []) 15
  have h1 : (hiresRun hiresOld 15).insts.map summary =
      [(none, false, false, 1, false, .completed), (some (0, 0), false, true, 1, false, .completed)] := by decide +kernel
  have h2 : (hiresRun hiresNew 15).insts.map summary =
      [(none, false, false, 1, false, .completed), (some (0, 0), false, true, 1, false, .completed)] := by decide +kernel
  have hv := served_of (e := hiresRun hiresOld 15) (i := 0) (by rw [h1]; decide)
  have hv' := served_of (e := hiresRun hiresNew 15) (i := 0) (by rw [h2]; decide)
  have h3 : ((hiresRun hiresOld 15).insts[0]?.map fun I => (I.handling, I.force, I.status)) = some (false, false, .completed) := by decide +kernel
  rw [show hiresRun hiresOld 15 = Eng.run hiresOld (Eng.init hiresOld "1" "u" hires []) 15 from rfl, hI] at h3
  simp only [Option.map_some, Option.some.injEq, Prod.mk.injEq] at h3
  obtain ⟨I', h4, h5, h6⟩ := C108_called_partial (fun _ _ _ => rfl) (fun _ _ _ => rfl) hires_covered hv.1 (fun h => nomatch h) hI ⟨h3.1, h3.2.1⟩
    h3.2.2 hv'.1 hv'.2 (kept_of_writes hires_writes) (kept_of_writes hires_writes) (fun k _ => rfl) hires_functional
  have h7 : ((hiresRun hiresNew 15).stack.length, (hiresRun hiresNew 15).queue.length) = (0, 0) := by decide +kernel
  simp only [Prod.mk.injEq, List.length_eq_zero_iff] at h7
  obtain ⟨h8, _, _, _, _, h9⟩ := h6 (Or.inl h7.1) (fun w hw => by rw [show runOf hiresNew "1" "u" hires [] 15 = hiresRun hiresNew 15 from rfl, h7.2] at hw; cases hw)
    (fun J hJ o ho => by
      have h10 : ∀ x ∈ (hiresRun hiresNew 15).insts.map summary, x.1.isSome → x.2.2.2.1 ≠ 0 := by rw [h2]; decide
      exact h10 _ (List.mem_map_of_mem hJ) (by show J.host.isSome = true; rw [ho]; rfl))
  exact ⟨I', h4, h5, h8, h9⟩

example : intAt (hiresRun hiresOld 15) "j" = some 7 ∧ intAt (hiresRun hiresNew 15) "j" = some 7 := by decide +kernel

/-- A and B, which have no incoming links, both fail; C follows each of them through an error link. -/
def bothFail : Def := { name := "f", main := ⟨[tk "A", tk "B", tk "C"], [⟨0, "A", "C", .error, ""⟩, ⟨1, "B", "C", .error, ""⟩]⟩ }

/-- The errors carry the name of the task. -/
def bothFailEnv (pick : Eng → Nat) : Env :=
  { tableEnv (fun t => if t = "C" then {} else { res := .err (.plain t) }) (fun _ => .ok true) with pick := pick }

def bothFailRun (pick : Eng → Nat) (n : Nat) : Eng :=
  runOf (bothFailEnv pick) "1" "u" bothFail [] n

theorem bothFail_leaf : Leaf bothFail.main := by
  intro t ht uri
  simp only [bothFail, List.mem_cons, List.not_mem_nil, or_false] at ht
  rcases ht with rfl | rfl | rfl <;> exact fun h => nomatch h

theorem bothFail_covered : Covered bothFail.main where
  wf := ⟨by decide, by decide, by decide, by decide⟩
  acyclic := ⟨fun t => if t = "C" then 1 else 0, by decide⟩
  order := by
    intro t
    apply pairwise_short
    by_cases h1 : t = "A"
    · subst h1; decide
    · by_cases h2 : t = "B"
      · subst h2; decide
      · simp [bothFail, Ne.symm h1, Ne.symm h2]
  sub := fun t ht uri h => absurd h (bothFail_leaf t ht uri)

/-- The task named in the error data that the flow shows last. -/
def failedTask (e : Eng) : Option String := (attrAt e 0 "_E").bind fun v => match v with
  | .obj m => (AMap.get? m "activity").bind fun v => match v with
    | .str s => some s
    | _ => none
  | _ => none

/-- C108 is false for the error data of the flow: in this flow, whose two failing tasks have error links, the two orders of execution lead to
different error data although the activities do the same. -/
theorem C108_negation : Covered bothFail.main ∧ Leaf bothFail.main ∧ Simple bothFail.main ∧
    (∀ pick, bothFailEnv pick = { bothFailEnv (fun _ => 0) with pick := pick }) ∧
    ∃ pick pick' I I', (bothFailRun pick 12).insts[0]? = some I ∧ (bothFailRun pick' 12).insts[0]? = some I' ∧ Undisturbed I ∧ Undisturbed I' ∧
      I.status = .completed ∧ I'.status = .completed ∧ attrAt (bothFailRun pick 0) 0 "_E" = attrAt (bothFailRun pick' 0) 0 "_E" ∧
      attrAt (bothFailRun pick 12) 0 "_E" ≠ attrAt (bothFailRun pick' 12) 0 "_E" := by
  refine ⟨bothFail_covered, bothFail_leaf, ?_, fun _ => rfl, fun _ => 0, fun e => e.queue.length - 1, ?_⟩
  · intro t ht
    simp only [bothFail, List.mem_cons, List.not_mem_nil, or_false] at ht
    rcases ht with rfl | rfl | rfl <;> rfl
  obtain ⟨I, hI⟩ := root_exists (env := bothFailEnv fun _ => 0) (id := "1") (uri := "u") (d := bothFail) (ins := []) 12
  obtain ⟨I', hI'⟩ := root_exists (env := bothFailEnv fun e => e.queue.length - 1) (id := "1") (uri := "u") (d := bothFail) (ins := []) 12
  have h1 : ((bothFailRun (fun _ => 0) 12).insts[0]?.map fun I => (I.handling, I.force, I.status)) = some (false, false, .completed) := by decide +kernel
  have h2 : ((bothFailRun (fun e => e.queue.length - 1) 12).insts[0]?.map fun I => (I.handling, I.force, I.status)) =
    some (false, false, .completed) := by decide +kernel
  have h3 : failedTask (bothFailRun (fun _ => 0) 12) = some "B" := by decide +kernel
  have h4 : failedTask (bothFailRun (fun e => e.queue.length - 1) 12) = some "A" := by decide +kernel
  unfold bothFailRun runOf at *
  rw [hI] at h1
  rw [hI'] at h2
  simp only [Option.map_some, Option.some.injEq, Prod.mk.injEq] at h1 h2
  refine ⟨I, I', hI, hI', ⟨h1.1, h1.2.1⟩, ⟨h2.1, h2.2.1⟩, h1.2.2, h2.2.2, rfl, fun hc => ?_⟩
  unfold failedTask at h3 h4
  rw [hc, h4] at h3
  exact absurd h3 (by decide)

end Flow
