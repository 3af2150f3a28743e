import Verif.Proofs.Loops
import Verif.Spec.Plain

/-!
C20 - C23: iterator and do-while tasks.
-/

namespace Flow
open Spec

variable {env : Env} {i o : Nat}

/-- C20: an iterator task visits the elements of what it iterates over one after the other, each exactly once.

Take any run and the first time an evaluation of the task instance is started; let `xs` be the elements of the value that
it iterates over at that time. Then at every later start of an evaluation (one that is not the resumption of an
asynchronous activity), with `k` the number of calls of the activity so far: `k` is at most the number of elements; if
element `k` exists, the activity is called once, in a state whose iteration variable is element `k`, and the task asks to
be evaluated again if the activity is done; otherwise the task is done without a call of the activity.

Assumed of the task: its configuration is one of an iterator without retry whose activity is not a subflow, and its input
mapping does not fail. -/
theorem C20_iterator (id uri : String) (d : Def) (ins : AMap String Val) {R : Nat → Eng}
    (hR : ∀ n, R n = Eng.run env (Eng.init env id uri d ins) n)
    (hord : ∀ m, (env.order m).Perm m.keys) (hs : Steady env i o)
    {n0 n : Nat} (hn : n0 ≤ n) {t : TaskRef} {td : TaskDef}
    (htd : (R n0).taskDef? i t = some td) (hkind : td.kind = .iterator) (hloop : td.loop ≠ none)
    (hact : td.act.sub? = none) (hr : td.retry = false)
    (hfirst : ∀ m, m < n0 → ∀ t e' r, ¬ Starts env (R m) i o t e' r)
    {e0 : Eng} {r0 : Eng.EvalOut} (hstart : Starts env (R n0) i o t e0 r0)
    {v : Val} (hv : ∀ w, next env (R n0) = some w → env.iterOn (afterPop env (R n0) w) i o = .ok v) (hv0 : v ≠ .null)
    {xs : List (Val × Val)} (hx : elements env.toInt env.order v = some xs)
    {e' : Eng} {r : Eng.EvalOut} (h : Starts env (R n) i o t e' r) :
    evalCount (R n) i o t ≤ xs.length ∧
    (∀ x, xs[evalCount (R n) i o t]? = some x → ∃ c, calls c i = .evalAct o t :: calls (R n) i ∧ calls e' i = calls c i ∧
      (c.obj? i o).bind (·.iteration) = some (x.1, x.2, (evalCount (R n) i o t : Int)) ∧
      iterResult (.res .again) (env.act c i o).res r ∧
      evalCount (R (n + 1)) i o t = evalCount (R n) i o t + 1) ∧
    (evalCount (R n) i o t = xs.length → r = .res .done ∧ evalCount (R (n + 1)) i o t = evalCount (R n) i o t) := by
  have hreach : ∀ m, Reachable env (R m) := fun m => ⟨id, uri, d, ins, m, hR m⟩
  have hstep : ∀ m, R (m + 1) = (R m).step env := fun m => by rw [hR, hR]; rfl
  have hadd : ∀ m l, R (m + l) = (R m).run env l := fun m l => by rw [hR, hR]; exact Eng.run_add env _ m l
  -- the task of the object
  obtain ⟨ob0, ho0, ht0⟩ : ∃ ob, (R n0).obj? i o = some ob ∧ ob.task = t := by
    have := hstart.1.task
    cases h : (R n0).obj? i o with
    | none => rw [h] at this; cases this
    | some ob => rw [h] at this; cases this; exact ⟨ob, rfl, rfl⟩
  -- before the first start
  have hA : ∀ m, m ≤ n0 → ∀ I, (R m).insts[i]? = some I → Eng.Unstarted o I := by
    intro m
    induction m with
    | zero => intro _; rw [hR]; exact Eng.Unstarted.init id uri d ins i o
    | succ m ih =>
      intro hm
      rw [hstep]
      refine Eng.Unstarted.step (Eng.insts_pos (hreach m)) (ih (by omega)) (hfirst m (by omega)) ?_
      intro ob hob
      have h1 : R n0 = (R m).run env (n0 - m) := by rw [← hadd]; congr 1; omega
      obtain ⟨h2, h3⟩ := Eng.task_back (hreach m) (n0 - m) (h1 ▸ ho0) (h1 ▸ (ht0 ▸ htd)) hob
      exact ⟨td, h3, hkind⟩
  have hT : ∀ m, (R (n0 + m)).taskDef? i t = some td := by
    intro m
    induction m with
    | zero => exact htd
    | succ m ih => rw [← Nat.add_assoc, hstep]; exact Eng.taskDef_step (hreach _) ih
  -- the first round
  obtain ⟨I0, hI0, hob0⟩ := Eng.obj?_some ho0
  have hun := hA n0 (Nat.le_refl _) I0 hI0
  obtain ⟨it0, hit0⟩ : ∃ it, mkIter env.toInt env.order td.name v = .ok (some it) := by
    cases v with
    | null => exact absurd rfl hv0
    | bool b => cases hx
    | str s =>
      simp only [elements] at hx
      simp only [mkIter]
      cases hs : env.toInt s with
      | none => rw [hs] at hx; cases hx
      | some n => exact ⟨_, rfl⟩
    | int n => exact ⟨_, rfl⟩
    | arr l => exact ⟨_, rfl⟩
    | slice l => exact ⟨_, rfl⟩
    | obj m => exact ⟨_, rfl⟩
  have hg0 : ∀ w, next env (R n0) = some w → Eng.getIter env (afterPop env (R n0) w) i o td = .ok (some it0) := by
    intro w hw
    unfold Eng.getIter
    rw [Eng.afterPop_obj, ho0]
    simp only [Option.bind_some, hun.iter ob0 hob0]
    cases hl : td.loop with
    | none => exact absurd hl hloop
    | some l => simp only [hv w hw]; exact hit0
  have hk0 := mkIter_elements hord hit0 hx
  -- later rounds
  have hready : ∀ m, (∃ t e' r, Starts env (R (n0 + m)) i o t e' r) → ∃ I ob it k, (R (n0 + m)).insts[i]? = some I ∧
      I.objs[o]? = some ob ∧ ob.task = t ∧
      (∀ w, next env (R (n0 + m)) = some w → Eng.getIter env (afterPop env (R (n0 + m)) w) i o td = .ok (some it)) ∧
      IterAt xs it k ∧ I.trace.count (.evalAct o t) = min k xs.length := by
    have hL : ∀ m, ∃ k, Eng.Looping xs i o t (R (n0 + 1 + m)) k := by
      intro m
      induction m with
      | zero =>
        obtain ⟨w, _, _, h3⟩ := Eng.round_of_getIter hs hstart hI0 hob0 (ht0 ▸ htd) hkind hact hr hg0 hk0
          (by rw [hun.calls]; simp)
        exact ⟨1, by rw [Nat.add_zero, hstep]; exact h3⟩
      | succ m ih =>
        obtain ⟨k, hk⟩ := ih
        have htd' : (R (n0 + 1 + m)).taskDef? i t = some td := by rw [Nat.add_assoc]; exact hT _
        rw [← Nat.add_assoc, hstep]
        by_cases hst : ∃ t e' r, Starts env (R (n0 + 1 + m)) i o t e' r
        · obtain ⟨t', e', r, hst⟩ := hst
          obtain ⟨I, ob, it, h1, h2, h3, h4, h5, h6⟩ := hk
          have ht' : t' = t := by
            have := hst.1.task; rw [Eng.obj?_eq h1, h2] at this; cases this; exact h3
          subst ht'
          obtain ⟨w, _, _, h7⟩ := Eng.round_of_getIter hs hst h1 h2 (h3 ▸ htd') hkind hact hr
            (fun w _ => Eng.getIter_some (by rw [Eng.afterPop_obj, Eng.obj?_eq h1]; exact h2) h4) h5 h6
          exact ⟨k + 1, h7⟩
        · exact ⟨k, hk.idle (Eng.insts_pos (hreach _)) (fun t e' r hh => hst ⟨t, e', r, hh⟩) htd' hkind⟩
    intro m _
    cases m with
    | zero => exact ⟨I0, ob0, it0, 0, hI0, hob0, ht0, hg0, hk0, by rw [hun.calls]; simp⟩
    | succ m =>
      obtain ⟨k, I, ob, it, h1, h2, h3, h4, h5, h6⟩ := hL m
      have he : n0 + (m + 1) = n0 + 1 + m := by omega
      rw [he]
      exact ⟨I, ob, it, k, h1, h2, h3,
        fun w _ => Eng.getIter_some (by rw [Eng.afterPop_obj, Eng.obj?_eq h1]; exact h2) h4, h5, h6⟩
  obtain ⟨m, rfl⟩ : ∃ m, n = n0 + m := ⟨n - n0, by omega⟩
  obtain ⟨I, ob, it, k, h1, h2, h3, h4, h5, h6⟩ := hready m ⟨t, e', r, h⟩
  obtain ⟨w, hw, hround, hloop'⟩ := Eng.round_of_getIter hs h h1 h2 (h3 ▸ hT m) hkind hact hr h4 h5 h6
  have hcount := Eng.evalCount_eq (o := o) h1 t
  rw [h6] at hcount
  have hnext : evalCount (R (n0 + m + 1)) i o t = min (k + 1) xs.length := by
    rw [hstep]
    obtain ⟨J, _, _, g1, _, _, _, _, g6⟩ := hloop'
    rw [Eng.evalCount_eq g1]; exact g6
  rw [hcount, hnext]
  refine ⟨by omega, fun x hx' => ?_, fun hk => ?_⟩
  · have hlt : min k xs.length < xs.length := (List.getElem?_eq_some_iff.1 hx').1
    have hmin : min k xs.length = k := by omega
    rw [hmin] at hx' ⊢
    obtain ⟨e1, c, e2, g1, g2, g3, g4, g5⟩ := hround.visit x hx'
    obtain ⟨J, hJ, hl⟩ := g1.inst (show (afterPop env (R (n0 + m)) w).insts[i]? = some I from h1)
    obtain ⟨g6, g7⟩ := g2.calls hJ
    have g8 : calls e1 i = calls (R (n0 + m)) i := by
      unfold calls; rw [hJ, h1]; dsimp only; rw [hl.trace]
    exact ⟨c, g8 ▸ g6, g5.trans g7, g3, g4, by omega⟩
  · exact ⟨(hround.stop (by omega)).1, by omega⟩

/-- C20: an iterator task over nothing is done without a call of its activity. -/
theorem C20_nothing {e e' : Eng} {t : TaskRef} {r : Eng.EvalOut} (h : Starts env e i o t e' r) {ob : Obj} {td : TaskDef}
    (ho : e.obj? i o = some ob) (hit : ob.iter = none) (htd : e.taskDef? i t = some td) (hkind : td.kind = .iterator)
    (hv : ∀ w, next env e = some w → env.iterOn (afterPop env e w) i o = .ok .null) :
    r = .res .done ∧ ∀ j, calls e' j = calls e j := by
  have ht : ob.task = t := by have := h.1.task; rw [ho] at this; cases this; rfl
  obtain ⟨w, hn, _, _, _, h5⟩ := Eng.evaluates_eval h.1 ho (ht ▸ htd)
  have h6 := h5 (h.2 ob ho)
  have h7 : (afterPop env e w).evalKind env i o td = (afterPop env e w, .res .done) := by
    unfold Eng.evalKind; rw [hkind]; dsimp only
    have : Eng.getIter env (afterPop env e w) i o td = .ok none := by
      unfold Eng.getIter
      rw [Eng.afterPop_obj, ho]
      simp only [Option.bind_some, hit]
      cases td.loop with
      | none => rfl
      | some l => simp only [hv w hn]; rfl
    unfold Eng.evalIter; rw [this]
  rw [h7] at h6
  cases h6
  exact ⟨rfl, fun _ => rfl⟩

/-- C20: when an evaluation ends with the request to be evaluated again, the task is in the work queue again. -/
theorem C20_again {e e' : Eng} {t : TaskRef} (h : Evaluates env e i o t e' (.res .again)) :
    ∃ w, (e.step env).queue = e'.queue ++ [w] ∧ w.inst = i ∧ w.obj = o := by
  obtain ⟨⟨name, h1⟩, _⟩ := Eng.evaluates_step h
  rw [h1]
  exact ⟨_, rfl, rfl, rfl⟩

theorem hasCondition_eq (td : TaskDef) (out : CondOut) : (if td.hasCondition then some out else none) = conditionOf td out := by
  unfold TaskDef.hasCondition conditionOf
  cases td.loop <;> rfl

/-- C21: a do-while task whose activity is not asynchronous.

Take any run and any start of an evaluation of the task instance before which all of its evaluations ended with the
request to be evaluated again. The activity is called once, in a state whose iteration index is the number of earlier
calls; if the activity is done, the condition is evaluated with the same index, and it decides: true repeats the task,
false ends it (`doWhileResult`).

Assumed of the task: no retry, the activity is not a subflow, and its input mapping does not fail. -/
theorem C21_do_while (id uri : String) (d : Def) (ins : AMap String Val) {R : Nat → Eng}
    (hR : ∀ n, R n = Eng.run env (Eng.init env id uri d ins) n) (hs : Steady env i o) {n : Nat} {t : TaskRef} {td : TaskDef}
    (htd : (R n).taskDef? i t = some td) (hkind : td.kind = .doWhile) (hact : td.act.sub? = none) (hr : td.retry = false)
    (hagain : ∀ m, m < n → ∀ t e' r, Evaluates env (R m) i o t e' r → Starts env (R m) i o t e' r ∧ r = .res .again)
    {e' : Eng} {r : Eng.EvalOut} (h : Starts env (R n) i o t e' r) :
    ∃ c f, calls c i = .evalAct o t :: calls (R n) i ∧ calls f i = calls c i ∧ calls e' i = calls c i ∧
      (c.obj? i o).bind (·.dwIndex) = some (evalCount (R n) i o t) ∧
      (f.obj? i o).bind (·.dwIndex) = some (evalCount (R n) i o t) ∧
      doWhileResult (conditionOf td (env.cond f i o)) (env.act c i o).res r := by
  have hreach : ∀ m, Reachable env (R m) := fun m => ⟨id, uri, d, ins, m, hR m⟩
  have hstep : ∀ m, R (m + 1) = (R m).step env := fun m => by rw [hR, hR]; rfl
  have hadd : ∀ m l, R (m + l) = (R m).run env l := fun m l => by rw [hR, hR]; exact Eng.run_add env _ m l
  have hobj : ∀ m t e' r, Evaluates env (R m) i o t e' r → ∃ I ob, (R m).insts[i]? = some I ∧ I.objs[o]? = some ob ∧ ob.task = t := by
    intro m t e' r hev
    have := hev.task
    cases h : (R m).obj? i o with
    | none => rw [h] at this; cases this
    | some ob =>
      rw [h] at this; cases this
      obtain ⟨I, h1, h2⟩ := Eng.obj?_some h
      exact ⟨I, ob, h1, h2, rfl⟩
  obtain ⟨In, obn, hIn, hobn, htn⟩ := hobj n t e' r h.1
  have hA : ∀ m, m ≤ n → ∀ I, (R m).insts[i]? = some I → Eng.Counted o I := by
    intro m
    induction m with
    | zero => intro _; rw [hR]; exact (Eng.Counted.stable o).init (Eng.Counted.fresh o) id uri d ins i
    | succ m ih =>
      intro hm
      have ih := ih (by omega)
      rw [hstep]
      by_cases hev : ∃ t e' r, Evaluates env (R m) i o t e' r
      · obtain ⟨t', f, r', hev⟩ := hev
        obtain ⟨hst, hra⟩ := hagain m (by omega) t' f r' hev
        obtain ⟨I, ob, hI, hob, ht⟩ := hobj m t' f r' hev
        have ho : (R m).obj? i o = some ob := by rw [Eng.obj?_eq hI]; exact hob
        have h1 : R n = (R m).run env (n - m) := by rw [← hadd]; congr 1; omega
        obtain ⟨h2, h3⟩ := Eng.task_back (hreach m) (n - m) (ob' := obn) (td := td)
          (by rw [← h1, Eng.obj?_eq hIn]; exact hobn) (by rw [← h1, htn]; exact htd) ho
        obtain ⟨w, hn, _, _, _, h5⟩ := Eng.evaluates_eval hev ho h3
        have h6 := h5 (hst.2 ob ho)
        have h7 : (afterPop env (R m) w).evalKind env i o td = (afterPop env (R m) w).evalDoWhile env i o td := by
          unfold Eng.evalKind; rw [hkind]
        rw [h7] at h6
        obtain ⟨_, _, _, _, _, _, _, _, _, h8⟩ := Eng.evalDoWhile_round hs
          (show (afterPop env (R m) w).insts[i]? = some I from hI) hob h3 hact hr
        rw [← h6] at h8
        obtain ⟨I', ob', g1, g2, g3, g4, g5⟩ := h8 hra
        obtain ⟨I2, g6, g7⟩ := Eng.evaluates_keep hev g1
        intro J hJ
        rw [g6] at hJ; cases hJ
        refine Eng.Counted.keep ⟨fun hn => (by rw [g2] at hn; cases hn), fun ob2 hob2 => ?_⟩ g7 g2
        rw [g2] at hob2; cases hob2
        rw [g3, g4, g5, ← (ih I hI).some ob hob]; rfl
      · obtain ⟨j, q, h1, h2⟩ := Eng.step_ops_ne (env := env) (i := i) (o := o) (Eng.insts_pos (hreach m)) (fun t e' r hh => hev ⟨t, e', r, hh⟩)
        exact (Eng.Counted.stable o).ops (Eng.Counted.fresh o) h1 h2 ih
  have hcnt := (hA n (Nat.le_refl _) In hIn).some obn hobn
  have hon : (R n).obj? i o = some obn := by rw [Eng.obj?_eq hIn]; exact hobn
  obtain ⟨w, hn, _, _, _, h5⟩ := Eng.evaluates_eval h.1 hon (htn ▸ htd)
  have h6 := h5 (h.2 obn hon)
  have h7 : (afterPop env (R n) w).evalKind env i o td = (afterPop env (R n) w).evalDoWhile env i o td := by
    unfold Eng.evalKind; rw [hkind]
  rw [h7] at h6
  have hIw : (afterPop env (R n) w).insts[i]? = some In := hIn
  obtain ⟨e1, c, e2, g1, g2, g3, g4, g5, g6, _⟩ := Eng.evalDoWhile_round hs hIw hobn
    (show (afterPop env (R n) w).taskDef? i obn.task = some td from htn ▸ htd) hact hr
  rw [← h6] at g5 g6
  obtain ⟨J, hJ, hl⟩ := g1.inst hIw
  obtain ⟨g7, g8⟩ := g2.calls hJ
  have g9 : calls e1 i = calls (R n) i := by unfold calls; rw [hJ, hIn]; dsimp only; rw [hl.trace]
  rw [Eng.evalCount_eq hIn, ← htn, ← hcnt]
  exact ⟨c, e2, g9 ▸ g7, g8, g5.trans g8, g3, g4, hasCondition_eq td _ ▸ g6⟩

/-- C21: a do-while task with the condition that the iteration index is less than `k`, whose activity succeeds: it is repeated after
each of the first `k` evaluations and ends with the next one. Its activity is called `k + 1` times, not `k` times as docs/model.md says. -/
theorem C21_index_condition (id uri : String) (d : Def) (ins : AMap String Val) {R : Nat → Eng}
    (hR : ∀ n, R n = Eng.run env (Eng.init env id uri d ins) n) (hs : Steady env i o) {n k : Nat} {t : TaskRef} {td : TaskDef}
    (htd : (R n).taskDef? i t = some td) (hkind : td.kind = .doWhile) (hact : td.act.sub? = none) (hr : td.retry = false)
    {cfg : LoopCfg} (hloop : td.loop = some cfg) (hcond : cfg.hasCondition = true)
    (hless : ∀ f, env.cond f i o = .ok (decide (((f.obj? i o).bind (·.dwIndex)).getD 0 < k)))
    (hagain : ∀ m, m < n → ∀ t e' r, Evaluates env (R m) i o t e' r → Starts env (R m) i o t e' r ∧ r = .res .again)
    {e' : Eng} {r : Eng.EvalOut} (h : Starts env (R n) i o t e' r) (hok : ∀ err, r ≠ .err err) (hw : r ≠ .res .wait) :
    evalCount e' i o t = evalCount (R n) i o t + 1 ∧
      (evalCount (R n) i o t < k → r = .res .again) ∧ (k ≤ evalCount (R n) i o t → r = .res .done) := by
  obtain ⟨c, f, h1, h2, h3, h4, h5, h6⟩ := C21_do_while id uri d ins hR hs htd hkind hact hr hagain h
  have hcall : ∀ e : Eng, evalCount e i o t = (calls e i).count (.evalAct o t) := by
    intro e
    unfold evalCount calls
    cases e.insts[i]? with
    | none => rfl
    | some I => exact (List.count_filter rfl).symm
  refine ⟨by rw [hcall, hcall, h3, h1, List.count_cons_self], ?_⟩
  have hco : conditionOf td (env.cond f i o) = some (.ok (decide (evalCount (R n) i o t < k))) := by
    unfold conditionOf
    rw [hloop, hless, h5]
    simp [hcond]
  rw [hco] at h6
  cases ha : (env.act c i o).res with
  | done =>
    rw [ha] at h6
    rcases h6 with h6 | ⟨err, h6⟩
    · constructor
      · intro hlt
        rw [h6, decide_eq_true hlt]; rfl
      · intro hge
        rw [h6, decide_eq_false (by omega)]; rfl
    · exact absurd h6 (hok err)
  | wait => rw [ha] at h6; exact absurd h6 hw
  | err x => rw [ha] at h6; obtain ⟨err, h6⟩ := h6; exact absurd h6 (hok err)
  | panic x => rw [ha] at h6; obtain ⟨err, h6⟩ := h6; exact absurd h6 (hok err)

/-! ### Concrete runs -/

/-- A flow with one looping task. -/
def loopFlow (kind : TaskKind) (act : ActKind) : Def :=
  { name := "f", main := ⟨[{ tk "A" with kind := kind, loop := some { hasCondition := true }, act := act }], []⟩ }
/-- Iterates over an array of three elements, repeats while the index is less than 2. -/
def loopEnv : Env :=
  { plainEnv with
    iterOn := fun _ _ _ => .ok (.arr [.int 7, .int 8, .int 9])
    cond := fun e i o => .ok (decide (((e.obj? i o).bind (·.dwIndex)).getD 0 < 2))
    defs := fun _ => .ok (some { name := "s", main := ⟨[tk "X"], []⟩ }) }
/-- The run. -/
def loopRun (kind : TaskKind) (act : ActKind) (n : Nat) : Eng := Eng.run loopEnv (Eng.init loopEnv "1" "u" (loopFlow kind act) []) n

-- C20: the elements are visited in order, then the flow completes
example : ((calls (loopRun .iterator .user 20) 0).length, flowStatus (loopRun .iterator .user 20) 0) = (3, some .completed) := by decide
-- C20: the hypotheses of `C20_iterator` are met by this run: the first evaluation starts at step 0, later ones at steps 1 to 3
example : (∀ m, (loopEnv.order m).Perm m.keys) ∧ Steady loopEnv 0 0 :=
  ⟨fun _ => .refl _, ⟨fun _ _ h => (by cases h), fun _ => rfl, fun _ => rfl⟩⟩
example : (∃ e' r, Starts loopEnv (loopRun .iterator .user 2) 0 0 ⟨false, "A"⟩ e' r) ∧
    evalCount (loopRun .iterator .user 2) 0 0 ⟨false, "A"⟩ = 2 := by
  refine ⟨⟨_, _, ⟨⟨⟨3, 0, 0⟩, rfl, rfl, rfl, rfl⟩, rfl⟩, fun ob h => ?_⟩, by decide⟩
  cases h; decide
-- C21: index 0, 1, 2; the condition is false for the third
example : ((calls (loopRun .doWhile .user 20) 0).length, flowStatus (loopRun .doWhile .user 20) 0) = (3, some .completed) := by decide

-- `C21_index_condition`: the condition of this run
example : ∀ f, loopEnv.cond f 0 0 = .ok (decide (((f.obj? 0 0).bind (·.dwIndex)).getD 0 < 2)) := fun _ => rfl

/-! ### C22 -/

/-- A state without pending work and without running functions does not change any more, apart from the step counter. -/
theorem stalled_forever {e : Eng} (hs : e.stack = []) (hq : e.queue = []) (n : Nat) :
    (Eng.run env e n).insts = e.insts ∧ (Eng.run env e n).queue = [] ∧ (Eng.run env e n).stack = [] := by
  induction n with
  | zero => exact ⟨rfl, hq, hs⟩
  | succ n ih =>
    obtain ⟨h1, h2, h3⟩ := ih
    have : Eng.step env (Eng.run env e n) = (Eng.run env e n) ∨
        Eng.step env (Eng.run env e n) = { Eng.run env e n with stepID := (Eng.run env e n).stepID + 1 } := by
      unfold Eng.step
      rw [h3]
      dsimp only
      unfold Eng.doStep
      cases (Eng.run env e n).insts[0]? with
      | none => exact Or.inl rfl
      | some I =>
        dsimp only
        split
        · rw [h2]; simp
        · exact Or.inr rfl
    show (Eng.step env (Eng.run env e n)).insts = _ ∧ _
    show (Eng.step env (Eng.run env e n)).insts = _ ∧ (Eng.step env (Eng.run env e n)).queue = [] ∧ (Eng.step env (Eng.run env e n)).stack = []
    rcases this with h | h <;> rw [h] <;> exact ⟨h1, h2, h3⟩

/-- The claim of C22 does not hold: an iterator task over three elements and a do-while task whose activity is a subflow
stop after the first iteration. The flow stays Active for ever. -/
theorem C22_negation : ∀ kind, kind = TaskKind.iterator ∨ kind = .doWhile → ∀ n, 20 ≤ n →
    flowStatus (loopRun kind (.subflow "s") n) 0 = some .active ∧ calls (loopRun kind (.subflow "s") n) 0 = [.postAct 0 ⟨false, "A"⟩, .evalAct 0 ⟨false, "A"⟩] := by
  intro kind hk n hn
  have hrun : loopRun kind (.subflow "s") n = Eng.run loopEnv (loopRun kind (.subflow "s") 20) (n - 20) := by
    unfold loopRun
    rw [← Eng.run_add]
    congr 1; omega
  have hst : (loopRun kind (.subflow "s") 20).stack = [] ∧ (loopRun kind (.subflow "s") 20).queue = [] := by
    rcases hk with rfl | rfl <;> decide
  have h := (stalled_forever (env := loopEnv) hst.1 hst.2 (n - 20)).1
  rw [← hrun] at h
  unfold flowStatus calls
  rw [h]
  rcases hk with rfl | rfl <;> decide

/-- What holds of C22: when the asynchronous activity of a do-while task is finished without an error, the condition is
evaluated in a state `f` with the index of the finished iteration; if it is false the task is done, if it is true the task
asks to be evaluated again.

Missing: the task is then not evaluated again, since its status is Done (`C22_negation`, `C22_stuck`); an iterator task
behaves in the same way. -/
theorem C22_post_do_while_partial {e e' : Eng} {t : TaskRef} {r : Eng.EvalOut} (h : Evaluates env e i o t e' r) {ob : Obj} {td : TaskDef}
    (ho : e.obj? i o = some ob) (hw : ob.status = .waiting) (htd : e.taskDef? i t = some td) (hkind : td.kind = .doWhile) :
    (∃ err, r = .err err) ∨ ∃ f ob', f.obj? i o = some ob' ∧ ob'.dwIndex = some (ob.dwIndex.getD 0) ∧
      r = afterCondition (conditionOf td (env.cond f i o)) := by
  have ht : ob.task = t := by have := h.task; rw [ho] at this; cases this; rfl
  obtain ⟨w, _, _, _, h4, _⟩ := Eng.evaluates_eval h ho (ht ▸ htd)
  have h5 := h4 hw
  have h6 : (afterPop env e w).postKind env i o td = (afterPop env e w).postDoWhile env i o td := by
    unfold Eng.postKind; rw [hkind]
  rw [h6] at h5
  obtain ⟨I, hI, hob⟩ := Eng.obj?_some ho
  have h7 := Eng.postDoWhile_cond (env := env) (td := td) (show (afterPop env e w).insts[i]? = some I from hI) hob
  rw [← h5] at h7
  rcases h7 with h7 | ⟨f, ob', g1, g2, g3, g4⟩
  · exact Or.inl h7
  · exact Or.inr ⟨f, ob', g1, g3, hasCondition_eq td _ ▸ g4⟩

/-- The number of rounds of an iteration over the data. -/
def sizeOfData : IterData → Int
  | .int n => n
  | .arr l => l.length
  | .obj _ m => m.length
  | .refl l => l.length

/-- What holds of C22 for iterator tasks: when the asynchronous activity of a round is finished without an error, the task asks to be
evaluated again; the evaluation that finds no further element would end it (`C20_iterator`).

Missing: as for do-while tasks, it is not evaluated again (`C22_negation`, `C22_stuck`). -/
theorem C22_post_iterator_partial {e e' : Eng} {t : TaskRef} {r : Eng.EvalOut} (h : Evaluates env e i o t e' r) {ob : Obj} {td : TaskDef}
    (ho : e.obj? i o = some ob) (hw : ob.status = .waiting) (htd : e.taskDef? i t = some td) (hkind : td.kind = .iterator)
    {it : Iter} (hit : ob.iter = some it) (hlt : it.current < sizeOfData it.data) : (∃ err, r = .err err) ∨ r = .res .again := by
  have ht : ob.task = t := by have := h.task; rw [ho] at this; cases this; rfl
  obtain ⟨w, _, _, _, h4, _⟩ := Eng.evaluates_eval h ho (ht ▸ htd)
  have h5 := h4 hw
  have h6 : (afterPop env e w).postKind env i o td = (afterPop env e w).postIter env i o := by
    unfold Eng.postKind; rw [hkind]
  rw [h6] at h5
  obtain ⟨I, hI, hob⟩ := Eng.obj?_some ho
  obtain ⟨I1, h1, h2, h3, h7⟩ := Eng.postOnce_inst (env := env) (o := o) (show (afterPop env e w).insts[i]? = some I from hI)
  obtain ⟨ob1, g1, g2, _, _, g5⟩ := Eng.SameWork.obj h7 hob
  simp only [Obj.work, Prod.mk.injEq] at g5
  unfold Eng.postIter at h5
  generalize (afterPop env e w).postOnce env i o = qq at h1 h5
  obtain ⟨e1, r1⟩ := qq
  cases r1 with
  | error err => exact Or.inl ⟨err, congrArg Prod.snd h5⟩
  | ok u =>
    dsimp only at h1 h5
    have h8 : (e1.setStatus i o .done).insts[i]? = some (I1.setTaskStatus o .done) := Eng.modI_self h1 _
    have h9 := Eng.setTaskStatus_obj g1 .done
    have h10 : ((e1.setStatus i o .done).obj? i o).bind (·.iter) = some it := by
      rw [Eng.obj?_eq h8, h9]
      exact g5.2.1.trans hit
    rw [h10] at h5
    dsimp only at h5
    have h11 : it.hasNext = true := by
      unfold Iter.hasNext
      have hb : it.bound = sizeOfData it.data := by unfold Iter.bound sizeOfData; cases it.data <;> rfl
      rw [hb, if_neg (by omega)]
    rw [if_pos h11] at h5
    exact Or.inr (congrArg Prod.snd h5)

-- non-trivial instance: the iterator of `C22_negation` when the first subflow has ended
example : ((loopRun .iterator (.subflow "s") 2).obj? 0 0).bind (fun ob => ob.iter.map (fun it => (ob.status, it.current, sizeOfData it.data))) =
    some (.waiting, 0, 3) := by decide

/-- A loop task whose asynchronous activity is finished is never evaluated again: after any evaluation that resumes it
without an error its status is Done, and a work item of a task instance with this status evaluates nothing. -/
theorem C22_stuck {e e' : Eng} {t : TaskRef} (h : Evaluates env e i o t e' (.res .again)) {ob : Obj} {td : TaskDef}
    (ho : e.obj? i o = some ob) (hw : ob.status = .waiting) (htd : e.taskDef? i t = some td) (hkind : td.kind ≠ .basic) :
    (∃ ob', (e.step env).obj? i o = some ob' ∧ ob'.status = .done) ∧ outcome env (e.step env) i o = none := by
  have ht : ob.task = t := by have := h.task; rw [ho] at this; cases this; rfl
  obtain ⟨w, _, _, _, h4, _⟩ := Eng.evaluates_eval h ho (ht ▸ htd)
  have h5 := h4 hw
  obtain ⟨I, hI, hob⟩ := Eng.obj?_some ho
  have h7 := Eng.postLoop_done (env := env) (show (afterPop env e w).insts[i]? = some I from hI) hob hkind
  rw [← h5] at h7
  rcases h7 with ⟨err, h7⟩ | ⟨ob', g1, g2, g3⟩
  · cases h7
  · obtain ⟨⟨name, h1⟩, _⟩ := Eng.evaluates_step h
    have h8 : (e.step env).obj? i o = some ob' := by rw [h1]; exact g1
    refine ⟨⟨ob', h8, g2⟩, ?_⟩
    unfold outcome
    rw [h8]
    dsimp only
    cases (e.step env).taskDef? i ob'.task with
    | none => rfl
    | some td' => dsimp only; rw [g2]; simp

/-! ### C23 -/

/-- What holds of C23: an iteration of a task with accumulation that finishes without error appends exactly one entry, the
outputs of the activity, to the accumulated output and changes no earlier entry. `I` is the flow instance after the
activity has set its outputs and attributes.

Missing: whole runs, see `C23_accumulated_partial`. -/
theorem C23_appends_partial (hs : Steady env i o) {e : Eng} {ob : Obj} {td : TaskDef} {cfg : LoopCfg} (ho : e.obj? i o = some ob)
    (htd : e.taskDef? i ob.task = some td) (hact : td.act.sub? = none) (hcfg : td.loop = some cfg) (hacc : cfg.accumulate = true)
    (hout : cfg.applyOutput = false) (h : (e.evalOnce env i o).2 = .ok true) :
    ∃ (I : Inst) (l : List Val), ((e.callState env i o ob td).applyActOut i o (env.act (e.callState env i o ob td) i o)).insts[i]? = some I ∧
      entries (I.attrs.get? ("_A." ++ ob.task.id)) = some l ∧
      (e.evalOnce env i o).1.insts[i]? =
        some (I.setValue ("_A." ++ ob.task.id) (.arr (l ++ [.obj (((I.objs[o]?).bind (·.outputs)).getD [])]))) := by
  rw [Eng.evalOnce_call hs ho htd hact] at h ⊢
  obtain ⟨J, hJ⟩ : ∃ J, ((e.callState env i o ob td).applyActOut i o (env.act (e.callState env i o ob td) i o)).insts[i]? = some J := by
    obtain ⟨I, hI, _⟩ := Eng.obj?_some ho
    obtain ⟨I1, h1, _⟩ := (Eng.LocalE.applyInputMapper (k := true) (env := env) (i := i) (o := o) e td.name).inst hI
    obtain ⟨I2, h2, _⟩ := Eng.applyActOut_inst (o := o) (Eng.called_inst (o := o) (t := ob.task) h1) (env.act (e.callState env i o ob td) i o)
    exact ⟨I2, h2⟩
  cases ha : (env.act (e.callState env i o ob td) i o).res with
  | done =>
    rw [ha] at h
    obtain ⟨l, h1, h2⟩ := Eng.afterDone_accumulate (ob := ob) hs.icp hJ (by unfold TaskDef.accumulates; rw [hcfg]; exact hacc)
      (by unfold TaskDef.appliesOutput; rw [hcfg]; exact hout) h
    exact ⟨J, l, hJ, h1, h2⟩
  | wait => rw [ha] at h; cases h
  | err err => rw [ha] at h; cases h
  | panic m => rw [ha] at h; cases h

end Flow
