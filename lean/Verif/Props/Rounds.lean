import Verif.Proofs.Rounds
import Verif.Props.Loops

/-
Property C96: loops whose tasks retry. A failed round is tried again as that round, not as the next one.
-/

namespace Flow

open Flow.Spec

variable {env : Env} {i o : Nat}

theorem start_unique {e e1 e2 : Eng} {t1 t2 : TaskRef} {r1 r2 : Eng.EvalOut} (h1 : Evaluates env e i o t1 e1 r1)
    (h2 : Evaluates env e i o t2 e2 r2) : t1 = t2 ∧ e1 = e2 ∧ r1 = r2 := by
  obtain ⟨⟨w1, a1, _, _, b1⟩, c1⟩ := h1
  obtain ⟨⟨w2, a2, _, _, b2⟩, c2⟩ := h2
  rw [a1] at a2; cases a2
  rw [b1] at b2; cases b2
  rw [c1] at c2; cases c2
  exact ⟨rfl, rfl, rfl⟩

/-- C96: an iterator task, whether or not it retries, waits or calls a flow.

Take any run and the first time an evaluation of the task instance is started; let `xs` be the elements of the value that
it iterates over at that time. Take any later start of an evaluation, `k` evaluations having been started before. If
element `k` exists, the evaluation is a sequence of attempts (as for a task without a loop, see C19), and all of them have
element `k` as their iteration variable; if they end well the task asks to be evaluated again. If there is no element `k`
the task is done, and the activity is not called. -/
theorem C96_iterator (id uri : String) (d : Def) (ins : AMap String Val) {R : Nat → Eng}
    (hR : ∀ n, R n = Eng.run env (Eng.init env id uri d ins) n)
    (hord : ∀ m, (env.order m).Perm m.keys)
    {n0 n k : Nat} (hn : n0 ≤ n) {t : TaskRef} {td : TaskDef}
    (htd : (R n0).taskDef? i t = some td) (hkind : td.kind = .iterator) (hloop : td.loop ≠ none)
    (hfirst : Rounds env R i o n0 0) (hk : Rounds env R i o n k)
    {e0 : Eng} {r0 : Eng.EvalOut} (hstart : Starts env (R n0) i o t e0 r0)
    {v : Val} (hv : ∀ w, next env (R n0) = some w → env.iterOn (afterPop env (R n0) w) i o = .ok v) (hv0 : v ≠ .null)
    {xs : List (Val × Val)} (hx : elements env.toInt env.order v = some xs)
    {e' : Eng} {r : Eng.EvalOut} (h : Starts env (R n) i o t e' r) :
    (∀ x, xs[k]? = some x → ∃ a as res, TriedAs env i o td a as res ∧
      (∀ b ∈ a :: as, iterationAt b.before i o = some (x.1, x.2, (k : Int))) ∧
      (∀ j, calls a.before j = calls (R n) j) ∧ (∀ j, calls e' j = calls (lastAttempt a as).after j) ∧
      r = roundResult (.res .again) res) ∧
    (xs.length ≤ k → r = .res .done ∧ ∀ j, calls e' j = calls (R n) j) := by
  have hreach : ∀ m, Reachable env (R m) := fun m => ⟨id, uri, d, ins, m, hR m⟩
  have hstep : ∀ m, R (m + 1) = (R m).step env := fun m => by rw [hR, hR]; rfl
  have hadd : ∀ m l, R (m + l) = (R m).run env l := fun m l => by rw [hR, hR]; exact Eng.run_add env _ m l
  have hnone : ∀ m k, Rounds env R i o m k → k = 0 → ∀ l, l < m → ∀ t e' r, ¬ Starts env (R l) i o t e' r := by
    intro m k h
    induction h with
    | zero => intro _ l hl; omega
    | start h hs ih => intro h0; omega
    | @rest m k h hs ih =>
      intro h0 l hl
      by_cases hlm : l = m
      · rw [hlm]; exact hs
      · exact ih h0 l (by omega)
  have hfirst := hnone n0 0 hfirst rfl
  -- the task of the object
  obtain ⟨ob0, ho0, ht0⟩ : ∃ ob, (R n0).obj? i o = some ob ∧ ob.task = t := by
    have := hstart.1.task
    cases h : (R n0).obj? i o with
    | none => rw [h] at this; cases this
    | some ob => rw [h] at this; cases this; exact ⟨ob, rfl, rfl⟩
  -- before the first start
  have hA : ∀ m, m ≤ n0 → ∀ I, (R m).insts[i]? = some I → Eng.Unstarted o I := by
    intro m
    induction m with
    | zero => intro _; rw [hR]; exact Eng.Unstarted.init id uri d ins i o
    | succ m ih =>
      intro hm
      rw [hstep]
      refine Eng.Unstarted.step (Eng.insts_pos (hreach m)) (ih (by omega)) (hfirst m (by omega)) ?_
      intro ob hob
      have h1 : R n0 = (R m).run env (n0 - m) := by rw [← hadd]; congr 1; omega
      obtain ⟨h2, h3⟩ := Eng.task_back (hreach m) (n0 - m) (h1 ▸ ho0) (h1 ▸ (ht0 ▸ htd)) hob
      exact ⟨td, h3, hkind⟩
  have hT : ∀ m, n0 ≤ m → (R m).taskDef? i t = some td := by
    intro m hm
    obtain ⟨l, rfl⟩ : ∃ l, m = n0 + l := ⟨m - n0, by omega⟩
    induction l with
    | zero => exact htd
    | succ l ih => rw [← Nat.add_assoc, hstep]; exact Eng.taskDef_step (hreach _) (ih (by omega))
  -- the first round
  obtain ⟨I0, hI0, hob0⟩ := Eng.obj?_some ho0
  have hun := hA n0 (Nat.le_refl _) I0 hI0
  obtain ⟨it0, hit0⟩ : ∃ it, mkIter env.toInt env.order td.name v = .ok (some it) := by
    cases v with
    | null => exact absurd rfl hv0
    | bool b => cases hx
    | str s =>
      simp only [elements] at hx
      simp only [mkIter]
      cases hs : env.toInt s with
      | none => rw [hs] at hx; cases hx
      | some n => exact ⟨_, rfl⟩
    | int n => exact ⟨_, rfl⟩
    | arr l => exact ⟨_, rfl⟩
    | slice l => exact ⟨_, rfl⟩
    | obj m => exact ⟨_, rfl⟩
  have hg0 : ∀ w, next env (R n0) = some w → Eng.getIter env (afterPop env (R n0) w) i o td = .ok (some it0) := by
    intro w hw
    unfold Eng.getIter
    rw [Eng.afterPop_obj, ho0]
    simp only [Option.bind_some, hun.iter ob0 hob0]
    cases hl : td.loop with
    | none => exact absurd hl hloop
    | some l => simp only [hv w hw]; exact hit0
  have hk0 := mkIter_elements hord hit0 hx
  obtain ⟨hT0, hP0⟩ := Eng.tries_of_getIter hstart hI0 hob0 (ht0 ▸ htd) hkind hg0 hk0
  -- later rounds
  have hround : ∀ {m l t' e' r}, n0 < m → Eng.Position xs i o t (R m) l → Starts env (R m) i o t' e' r →
      Eng.Tries env i o td xs l (R m) e' r ∧ Eng.Position xs i o t (R (m + 1)) (l + 1) := by
    intro m l t' e' r hm hp hst
    obtain ⟨I, ob, it, h1, h2, h3, h4, h5⟩ := hp
    have ht' : t' = t := by
      have := hst.1.task; rw [Eng.obj?_eq h1, h2] at this; cases this; exact h3
    subst ht'
    rw [hstep]
    exact Eng.tries_of_getIter hst h1 h2 (h3 ▸ hT m (by omega)) hkind
      (fun w _ => Eng.getIter_some (by rw [Eng.afterPop_obj, Eng.obj?_eq h1]; exact h2) h4) h5
  have hL : ∀ m l, Rounds env R i o m l → (m ≤ n0 → l = 0) ∧ (n0 < m → Eng.Position xs i o t (R m) l) := by
    intro m l hrd
    induction hrd with
    | zero => exact ⟨fun _ => rfl, fun h => absurd h (by omega)⟩
    | @start m l t' f r' hrd hs ih =>
      refine ⟨fun hm => absurd hs (hfirst m (by omega) _ _ _), fun hm => ?_⟩
      by_cases hmn : m = n0
      · subst hmn
        rw [ih.1 (Nat.le_refl _), hstep]
        exact hP0
      · exact (hround (by omega) (ih.2 (by omega)) hs).2
    | @rest m l hrd hs ih =>
      refine ⟨fun hm => ih.1 (by omega), fun hm => ?_⟩
      by_cases hmn : m = n0
      · subst hmn; exact absurd hstart (hs _ _ _)
      · rw [hstep]
        exact (ih.2 (by omega)).idle (Eng.insts_pos (hreach _)) hs (hT m (by omega)) hkind
  by_cases hnn : n = n0
  · subst hnn
    rw [(hL n k hk).1 (Nat.le_refl _)]
    obtain ⟨_, he, hr⟩ := start_unique h.1 hstart.1
    rw [he, hr]
    exact ⟨hT0.visit, hT0.stop⟩
  · have := (hround (by omega) ((hL n k hk).2 (by omega)) h).1
    exact ⟨this.visit, this.stop⟩

/-- C96: a do-while task, whether or not it retries, waits or calls a flow.

Take any run and any start of an evaluation of the task instance before which all of its evaluations waited or ended with
the request to repeat it; let `k` be the number of the latter. The evaluation is a sequence of attempts (as for a task
without a loop, see C19), and all of them have index `k`; if they end well, the condition is evaluated with the same index,
and it decides whether the task is repeated. -/
theorem C96_do_while (id uri : String) (d : Def) (ins : AMap String Val) {R : Nat → Eng}
    (hR : ∀ n, R n = Eng.run env (Eng.init env id uri d ins) n) {n k : Nat} {t : TaskRef} {td : TaskDef}
    (htd : (R n).taskDef? i t = some td) (hkind : td.kind = .doWhile)
    (hgoes : ∀ m, m < n → ∀ t e' r, Evaluates env (R m) i o t e' r → r = .res .again ∨ r = .res .wait)
    (hk : Repeats env R i o n k)
    {e' : Eng} {r : Eng.EvalOut} (h : Starts env (R n) i o t e' r) :
    ∃ a as res f, TriedAs env i o td a as res ∧ (∀ b ∈ a :: as, indexAt b.before i o = some k) ∧
      (∀ j, calls a.before j = calls (R n) j) ∧ (∀ j, calls f j = calls (lastAttempt a as).after j) ∧
      (∀ j, calls e' j = calls (lastAttempt a as).after j) ∧ indexAt f i o = some k ∧
      r = roundResult (afterCondition (conditionOf td (env.cond f i o))) res := by
  have hreach : ∀ m, Reachable env (R m) := fun m => ⟨id, uri, d, ins, m, hR m⟩
  have hstep : ∀ m, R (m + 1) = (R m).step env := fun m => by rw [hR, hR]; rfl
  have hadd : ∀ m l, R (m + l) = (R m).run env l := fun m l => by rw [hR, hR]; exact Eng.run_add env _ m l
  have hobj : ∀ m t e' r, Evaluates env (R m) i o t e' r → ∃ ob, (R m).obj? i o = some ob ∧ ob.task = t := by
    intro m t e' r hev
    have := hev.task
    cases h : (R m).obj? i o with
    | none => rw [h] at this; cases this
    | some ob => rw [h] at this; cases this; exact ⟨ob, rfl, rfl⟩
  obtain ⟨obn, hon, htn⟩ := hobj n t e' r h.1
  -- an evaluation keeps the index if it waits, and advances it if it repeats the task
  have hev1 : ∀ m t e' r l l', m < n → Evaluates env (R m) i o t e' r → (∀ I, (R m).insts[i]? = some I → Eng.Indexed o l I) →
      (r = .res .again → l' = l + 1) → (r = .res .wait → l' = l) →
      (∀ I, (R (m + 1)).insts[i]? = some I → Eng.Indexed o l' I) ∧ ∃ ob, (R (m + 1)).obj? i o = some ob := by
    intro m t' f r' l l' hm hev ih hl1 hl2
    obtain ⟨ob, ho, ht⟩ := hobj m t' f r' hev
    obtain ⟨I, hI, hob⟩ := Eng.obj?_some ho
    have h1 : R n = (R m).run env (n - m) := by rw [← hadd]; congr 1; omega
    obtain ⟨h2, h3⟩ := Eng.task_back (hreach m) (n - m) (ob' := obn) (td := td) (by rw [← h1]; exact hon) (by rw [← h1, htn]; exact htd) ho
    obtain ⟨w, hn, _, _, h4, h5⟩ := Eng.evaluates_eval hev ho h3
    have hidx := (ih I hI).some ob hob
    have key : ∃ ob', f.obj? i o = some ob' ∧ ob'.dwIndex.getD 0 = l' := by
      by_cases hw : ob.status = .waiting
      · have h6 := h4 hw
        have h7 : (afterPop env (R m) w).postKind env i o td = (afterPop env (R m) w).postDoWhile env i o td := by
          unfold Eng.postKind; rw [hkind]
        rw [h7] at h6
        have h8 := Eng.postDoWhile_index (env := env) (td := td) (show (afterPop env (R m) w).obj? i o = some ob from ho)
        rw [← h6] at h8
        rcases hgoes m hm t' f r' hev with hr | hr
        · obtain ⟨ob', g1, g2⟩ := h8.2 hr
          exact ⟨ob', g1, by rw [g2, hidx, hl1 hr]⟩
        · exact absurd hr h8.1
      · have h6 := h5 hw
        have h7 : (afterPop env (R m) w).evalKind env i o td = (afterPop env (R m) w).evalDoWhile env i o td := by
          unfold Eng.evalKind; rw [hkind]
        rw [h7] at h6
        have h8 := Eng.evalDoWhile_tried (env := env) (show (afterPop env (R m) w).obj? i o = some ob from ho)
          (show (afterPop env (R m) w).taskDef? i ob.task = some td from h3)
        rw [← h6] at h8
        rcases hgoes m hm t' f r' hev with hr | hr
        · obtain ⟨ob', g1, g2⟩ := h8.2.2 hr
          exact ⟨ob', g1, by rw [g2, hidx, hl1 hr]⟩
        · obtain ⟨ob', g1, g2⟩ := h8.2.1 hr
          exact ⟨ob', g1, by rw [g2, hidx, hl2 hr]⟩
    obtain ⟨ob', g1, g2⟩ := key
    obtain ⟨I1, g3, g4⟩ := Eng.obj?_some g1
    obtain ⟨I2, g6, g7⟩ := Eng.evaluates_keep hev g3
    refine ⟨fun J hJ => ?_, ?_⟩
    · rw [hstep, g6] at hJ; cases hJ
      refine Eng.Indexed.keep ⟨fun hn => (by rw [g4] at hn; cases hn), fun ob2 hob2 => ?_⟩ g7 g4
      rw [g4] at hob2; cases hob2
      exact g2
    · obtain ⟨ob3, g8, _⟩ := g7.obj ob' g4
      exact ⟨ob3, by rw [hstep, Eng.obj?_eq g6]; exact g8⟩
  have hA : ∀ m l, Repeats env R i o m l → m ≤ n → (∀ I, (R m).insts[i]? = some I → Eng.Indexed o l I) ∧
      (l = 0 ∨ ∃ ob, (R m).obj? i o = some ob) := by
    intro m l hrep
    induction hrep with
    | zero => intro _; rw [hR]; exact ⟨(Eng.Indexed.stable o 0).init (Eng.Indexed.fresh o) id uri d ins i, Or.inl rfl⟩
    | @again m l t' f hrep hs ih =>
      intro hm
      have := hev1 m t' f _ l (l + 1) (by omega) hs (ih (by omega)).1 (fun _ => rfl) (fun h => nomatch h)
      exact ⟨this.1, Or.inr this.2⟩
    | @rest m l hrep hs ih =>
      intro hm
      obtain ⟨ih1, ih2⟩ := ih (by omega)
      by_cases hev : ∃ t e' r, Evaluates env (R m) i o t e' r
      · obtain ⟨t', f, r', hev⟩ := hev
        have := hev1 m t' f r' l l (by omega) hev ih1 (fun hr => by subst hr; exact absurd hev (hs t' f)) (fun _ => rfl)
        exact ⟨this.1, Or.inr this.2⟩
      · have hne : ∀ t e' r, ¬ Evaluates env (R m) i o t e' r := fun t e' r hh => hev ⟨t, e', r, hh⟩
        rcases ih2 with hl0 | ⟨ob, hob⟩
        · subst hl0
          obtain ⟨j, q, h1, h2⟩ := Eng.step_ops_ne (env := env) (i := i) (o := o) (Eng.insts_pos (hreach m)) hne
          rw [hstep]
          exact ⟨(Eng.Indexed.stable o 0).ops (Eng.Indexed.fresh o) h1 h2 ih1, Or.inl rfl⟩
        · obtain ⟨I, hI, hob⟩ := Eng.obj?_some hob
          obtain ⟨I', g1, g2⟩ := Eng.step_keep (env := env) (Eng.insts_pos (hreach m)) hne hI
          obtain ⟨ob3, g8, _⟩ := g2.obj ob hob
          refine ⟨fun J hJ => ?_, Or.inr ⟨ob3, by rw [hstep, Eng.obj?_eq g1]; exact g8⟩⟩
          rw [hstep, g1] at hJ; cases hJ
          exact (ih1 I hI).keep g2 hob
  obtain ⟨In, hIn, hobn⟩ := Eng.obj?_some hon
  have hcnt := ((hA n k hk (Nat.le_refl _)).1 In hIn).some obn hobn
  obtain ⟨w, hn, _, _, _, h5⟩ := Eng.evaluates_eval h.1 hon (htn ▸ htd)
  have h6 := h5 (h.2 obn hon)
  have h7 : (afterPop env (R n) w).evalKind env i o td = (afterPop env (R n) w).evalDoWhile env i o td := by
    unfold Eng.evalKind; rw [hkind]
  rw [h7] at h6
  have h8 := (Eng.evalDoWhile_tried (env := env) (show (afterPop env (R n) w).obj? i o = some obn from hon)
    (show (afterPop env (R n) w).taskDef? i obn.task = some td from htn ▸ htd)).1
  rw [← h6, hcnt] at h8
  simp only [hasCondition_eq] at h8
  exact h8

/-! ### Concrete runs -/

/-- A flow with one looping task that may be retried. -/
def retryLoop (kind : TaskKind) : Def :=
  { name := "f", main := ⟨[{ tk "A" with kind := kind, loop := some { hasCondition := true }, retry := true }], []⟩ }
/-- Its activity fails in a retriable way at every other call, beginning with the first; it iterates over `xs`, or repeats
while the index is less than the length of `xs` minus one; `c` retries are configured. -/
def flakyEnv (xs : List Val) (c : Int) : Env :=
  { plainEnv with
    act := fun e i _ => if (calls e i).length % 2 = 1 then { res := .err (.act "no" "" .null "" true) } else { res := .done }
    retryCount := fun _ _ _ => .ok c
    iterOn := fun _ _ _ => .ok (.arr xs)
    cond := fun e i o => .ok (decide (((e.obj? i o).bind (·.dwIndex)).getD 0 + 1 < xs.length)) }
/-- The run. -/
def flakyRun (kind : TaskKind) (xs : List Val) (c : Int) (n : Nat) : Eng :=
  Eng.run (flakyEnv xs c) (Eng.init (flakyEnv xs c) "1" "u" (retryLoop kind) []) n

-- with enough retries both rounds are repeated once: four calls, and the flow completes
example : ((calls (flakyRun .iterator [.int 7, .int 8] 2 20) 0).length, flowStatus (flakyRun .iterator [.int 7, .int 8] 2 20) 0) =
    (4, some .completed) := by decide
example : ((calls (flakyRun .doWhile [.int 7, .int 8] 2 20) 0).length, flowStatus (flakyRun .doWhile [.int 7, .int 8] 2 20) 0) =
    (4, some .completed) := by decide

-- `C96_iterator` applies to the second round, which starts at step 1 and makes the third and the fourth call
example : ∃ a as res, TriedAs (flakyEnv [.int 7, .int 8] 2) 0 0 ({ tk "A" with kind := .iterator, loop := some { hasCondition := true }, retry := true } : TaskDef) a as res ∧
    (∀ b ∈ a :: as, iterationAt b.before 0 0 = some (.int 1, .int 8, 1)) ∧
    (calls a.before 0).length = 2 ∧ (calls (lastAttempt a as).after 0).length = 4 := by
  have h0 : Rounds (flakyEnv [.int 7, .int 8] 2) (flakyRun .iterator [.int 7, .int 8] 2) 0 0 0 0 := .zero
  have hs : ∃ e' r, Starts (flakyEnv [.int 7, .int 8] 2) (flakyRun .iterator [.int 7, .int 8] 2 0) 0 0 ⟨false, "A"⟩ e' r :=
    ⟨_, _, ⟨⟨⟨1, 0, 0⟩, rfl, rfl, rfl, rfl⟩, rfl⟩, fun ob h => by cases h; decide⟩
  obtain ⟨e0, r0, hs⟩ := hs
  have h1 : ∃ e' r, Starts (flakyEnv [.int 7, .int 8] 2) (flakyRun .iterator [.int 7, .int 8] 2 1) 0 0 ⟨false, "A"⟩ e' r ∧
      (calls e' 0).length = 4 :=
    ⟨_, _, ⟨⟨⟨⟨2, 0, 0⟩, rfl, rfl, rfl, rfl⟩, rfl⟩, fun ob h => by cases h; decide⟩, by decide +kernel⟩
  obtain ⟨e1, r1, h1, hc⟩ := h1
  obtain ⟨a, as, res, g1, g2, g3, g4, _⟩ := (C96_iterator (env := flakyEnv [.int 7, .int 8] 2) "1" "u" (retryLoop .iterator) []
    (R := flakyRun .iterator [.int 7, .int 8] 2) (fun _ => rfl) (fun _ => .refl _) (n0 := 0) (n := 1) (by omega) rfl rfl
    (by intro h; cases h) h0 (.start h0 hs) hs (v := .arr [.int 7, .int 8]) (fun _ _ => rfl) (by intro h; cases h) rfl h1).1
    (.int 1, .int 8) rfl
  exact ⟨a, as, res, g1, g2, by rw [g3]; decide +kernel, by rw [← g4]; exact hc⟩

-- `C96_do_while` applies to the second round
example : ∃ a as res, TriedAs (flakyEnv [.int 7, .int 8] 2) 0 0 ({ tk "A" with kind := .doWhile, loop := some { hasCondition := true }, retry := true } : TaskDef) a as res ∧
    (∀ b ∈ a :: as, indexAt b.before 0 0 = some 1) ∧
    (calls a.before 0).length = 2 ∧ (calls (lastAttempt a as).after 0).length = 4 := by
  have hs : ∃ e', Starts (flakyEnv [.int 7, .int 8] 2) (flakyRun .doWhile [.int 7, .int 8] 2 0) 0 0 ⟨false, "A"⟩ e' (.res .again) :=
    ⟨_, ⟨⟨⟨1, 0, 0⟩, rfl, rfl, rfl, rfl⟩, rfl⟩, fun ob h => by cases h; decide⟩
  obtain ⟨e0, hs⟩ := hs
  have h1 : ∃ e' r, Starts (flakyEnv [.int 7, .int 8] 2) (flakyRun .doWhile [.int 7, .int 8] 2 1) 0 0 ⟨false, "A"⟩ e' r ∧
      (calls e' 0).length = 4 :=
    ⟨_, _, ⟨⟨⟨⟨2, 0, 0⟩, rfl, rfl, rfl, rfl⟩, rfl⟩, fun ob h => by cases h; decide⟩, by decide +kernel⟩
  obtain ⟨e1, r1, h1, hc⟩ := h1
  obtain ⟨a, as, res, f, g1, g2, g3, _, g4, _⟩ := C96_do_while (env := flakyEnv [.int 7, .int 8] 2) "1" "u" (retryLoop .doWhile) []
    (R := flakyRun .doWhile [.int 7, .int 8] 2) (fun _ => rfl) (n := 1) (k := 1) rfl rfl
    (fun m hm t e' r hev => by
      obtain rfl : m = 0 := by omega
      exact Or.inl (start_unique hev hs.1).2.2) (.again .zero hs.1) h1
  exact ⟨a, as, res, g1, g2, by rw [g3]; decide +kernel, by rw [← g4]; exact hc⟩

/-- "Every round has the configured number of retries" does not hold: the retries are counted for the whole loop. One retry
is configured, and one retry suffices for each of the elements alone; but the loop over both elements fails, the round of
the second element having been tried only once. The same holds for do-while tasks. -/
theorem C96_negation_budget :
    (∀ v, v = Val.int 7 ∨ v = .int 8 →
      (flowStatus (flakyRun .iterator [v] 1 20) 0, (calls (flakyRun .iterator [v] 1 20) 0).length) = (some .completed, 2)) ∧
    (flowStatus (flakyRun .iterator [.int 7, .int 8] 1 20) 0, (calls (flakyRun .iterator [.int 7, .int 8] 1 20) 0).length) = (some .failed, 3) ∧
    (flowStatus (flakyRun .doWhile [.int 7, .int 8] 1 20) 0, (calls (flakyRun .doWhile [.int 7, .int 8] 1 20) 0).length) = (some .failed, 3) := by
  refine ⟨fun v hv => ?_, by decide, by decide⟩
  rcases hv with rfl | rfl <;> decide

end Flow
