import Verif.Proofs.SpanTree
import Verif.Proofs.SpanTry
import Verif.Props.Run
import Verif.Props.Retry
import Verif.Props.Results
import Verif.Props.Graph
import Verif.Props.Events

/-
C92: tracing. Every span that is started is finished once, with the outcome of what it describes, and spans nest as flows and
tasks do.
-/

namespace Flow
open Spec

/-- A state of a run with tracing. -/
def Traced (env : Env) (s : SpanRun) : Prop := ∃ id uri d ins n, s = SpanRun.run env (SpanRun.init env id uri d ins) n

variable {env : Env} {s : SpanRun}

theorem Traced.inv (h : Traced env s) : SpanInv s ∧ TreeInv s ∧ Reachable env s.eng := by
  obtain ⟨id, uri, d, ins, n, rfl⟩ := h
  refine ⟨SpanRun.inv env id uri d ins n, SpanRun.tree env id uri d ins n, id, uri, d, ins, n, ?_⟩
  rw [SpanRun.run_eng]; rfl

/-- C92, tracing does not change what is executed. -/
theorem C92_same (env : Env) (id uri : String) (d : Def) (ins : AMap String Val) (n : Nat) :
    (SpanRun.run env (SpanRun.init env id uri d ins) n).eng = Eng.run env (Eng.init env id uri d ins) n :=
  SpanRun.run_eng env _ n

/-- C92, tasks: a span of a task is not finished twice, unless the task is an iterator. Unless the task is entered again after
it has waited, every span of it is finished once (iterators: at least once), except the newest one while the task waits.

Partial: `C92_negation_twice` and `C92_negation_lost` show that both exceptions are needed. -/
theorem C92_task_partial (h : Traced env s) {i o : Nat} {I : Inst} {ob : Obj} {td : TaskDef} (hI : s.eng.insts[i]? = some I)
    (ho : I.objs[o]? = some ob) (htd : I.defn.task? ob.task = some td) :
    (td.kind ≠ .iterator → ∀ k, OwnedBy s.st.log k (.task i o) → (finishes s.st.log k).length ≤ 1) ∧
    (NotReentered I.trace o → ∀ k, OwnedBy s.st.log k (.task i o) → finishes s.st.log k ≠ [] ∨ (ob.status = .waiting ∧ Newest s.st.log k i o)) ∧
    (ob.status = .waiting → ∃ k, Newest s.st.log k i o ∧ finishes s.st.log k = []) := by
  obtain ⟨hinv, _, _⟩ := h.inv
  have hob : s.eng.obj? i o = some ob := by rw [Eng.obj?_eq hI]; exact ho
  refine ⟨fun hk => ?_, fun hnr k hk => ?_, fun hw => ?_⟩
  · refine hinv.once i o ob td hob ?_ hk
    unfold Eng.taskDef?
    rw [hI]; exact htd
  · by_cases hf : finishes s.st.log k = []
    · obtain ⟨h1, h2⟩ := hinv.left i o I hI hnr
      have h3 := h2 k hk hf
      have h4 := h1 (SpanSt.state_opened.2 ⟨k, h3, hf⟩)
      unfold Inst.stOf at h4
      rw [ho] at h4
      exact Or.inr ⟨by simpa using h4, hinv.wf.task i o k h3⟩
    · exact Or.inl hf
  · obtain ⟨k, h1, h2⟩ := SpanSt.state_opened.1 (hinv.wait i o ob hob hw)
    exact ⟨k, hinv.wf.task i o k h1, h2⟩

open SpanSt in
/-- Operations on spans of flow instances, and forgetting a span, leave the spans of a task as they are. -/
theorem spans_kept {i o : Nat} {ops : List SpanOp} : ∀ {st : SpanSt}, st.WF → (∀ op ∈ ops, Eng.OnFlow op ∨ op = .dropTask i o) →
    (∀ k, OwnedBy (st.applyAll ops).log k (.task i o) ↔ OwnedBy st.log k (.task i o)) ∧
    ∀ k, OwnedBy st.log k (.task i o) → finishes (st.applyAll ops).log k = finishes st.log k := by
  induction ops with
  | nil => intro st _ _; exact ⟨fun _ => Iff.rfl, fun _ _ => rfl⟩
  | cons op ops ih =>
    intro st w hops
    have h1 : (∀ k, OwnedBy (st.apply op).log k (.task i o) ↔ OwnedBy st.log k (.task i o)) ∧
        ∀ k, OwnedBy st.log k (.task i o) → finishes (st.apply op).log k = finishes st.log k := by
      rcases hops op List.mem_cons_self with hop | rfl
      · cases op with
        | startFlow j a b =>
          refine ⟨fun k => ⟨fun hk => ?_, fun hk => OwnedBy.mono hk⟩, fun k hk => rfl⟩
          rcases owned_started.1 hk with ⟨_, hx⟩ | hx
          · cases hx
          · exact hx
        | endFlow j err =>
          unfold SpanSt.apply
          dsimp only
          cases hj : st.flow j with
          | none => exact ⟨fun _ => Iff.rfl, fun _ _ => rfl⟩
          | some x =>
            refine ⟨fun k => ⟨fun hk => owned_finished.1 hk, fun hk => OwnedBy.mono hk⟩, fun k hk => ?_⟩
            show finishes (.finished x err :: st.log) k = _
            rw [finishes_finished, if_neg (fun hx => ?_)]
            subst hx
            have := w.owner hk (w.flow _ _ hj)
            cases this
        | _ => exact False.elim hop
      · exact ⟨fun _ => Iff.rfl, fun _ _ => rfl⟩
    obtain ⟨a1, a2⟩ := ih (w.apply op) (fun x hx => hops x (List.mem_cons_of_mem _ hx))
    rw [applyAll_cons]
    exact ⟨fun k => (a1 k).trans (h1.1 k), fun k hk => (a2 k ((h1.1 k).2 hk)).trans (h1.2 k hk)⟩

open SpanSt in
/-- C92, outcomes: after an evaluation the newest span of the task is finished with the error of the evaluation, without an
error if the task is done or repeated, and not finished if the task waits.

Iterators are left out since the round in which they end calls no activity (`C92_negation_twice`). -/
theorem C92_result (h : Traced env s) {i o : Nat} {t : TaskRef} {e' : Eng} {r : Eng.EvalOut} (hev : Evaluates env s.eng i o t e' r)
    {td : TaskDef} (htd : s.eng.taskDef? i t = some td) (hk : td.kind ≠ .iterator) :
    ∃ k, Newest (s.step env).st.log k i o ∧ finishes (s.step env).st.log k = spanEnd t r := by
  obtain ⟨hinv, _, hreach⟩ := h.inv
  obtain ⟨⟨w, hn, rfl, rfl, hout⟩, ht⟩ := hev
  cases hob : s.eng.obj? w.inst w.obj with
  | none => rw [hob] at ht; cases ht
  | some ob =>
    rw [hob] at ht
    cases ht
    have hob' : (afterPop env s.eng w).obj? w.inst w.obj = some ob := hob
    have htd' : (afterPop env s.eng w).taskDef? w.inst ob.task = some td := htd
    have hlog : (s.step env).st = s.st.applyAll (Eng.spanExec env (afterPop env s.eng w) w.inst w.obj) := by
      show s.st.applyAll (s.eng.spanStep env) = _
      rw [Eng.spanStep_next hn]
    rw [hlog]
    -- before the result is handled, the newest span is not finished
    have hpre : ∃ pre, Eng.spanExec env (afterPop env s.eng w) w.inst w.obj = pre ++ Eng.spanResult env e' w.inst w.obj ob.task r ∧
        scan w.inst w.obj (s.st.state w.inst w.obj) pre = .opened ∧ r ≠ .res .fail := by
      rcases Eng.spanExec_eq hob' htd' hout with ⟨hw, hx, heq⟩ | ⟨hw, hx, heq⟩
      · refine ⟨_, heq, ?_, fun hr => ?_⟩
        · rw [hinv.wait _ _ ob hob hw]
          exact (Eng.spanPost_continues _ td).last
        · obtain ⟨f, _, hp⟩ := Eng.postKind_spec (env := env) hob' td
          rw [← hx, hr] at hp; exact hp
      · refine ⟨_, heq, ?_, fun hr => ?_⟩
        · rcases Eng.spanEval_opens (env := env) (i := w.inst) (o := w.obj) (afterPop env s.eng w) td with hy | ⟨_, hy, _⟩
          · exact (hy _).last
          · exact absurd hy hk
        · obtain ⟨f, _, hp⟩ := Eng.evalKind_spec (env := env) hob' td
          rw [← hx, hr] at hp; exact hp
    obtain ⟨pre, heq, hop, hnf⟩ := hpre
    rw [heq, applyAll_append]
    have hst := (hinv.wf.all w.inst w.obj pre).1
    rw [hop] at hst
    obtain ⟨k, h1, h2⟩ := state_opened.1 hst
    have hwf := hinv.wf.applyAll pre
    have hnew := hwf.task _ _ k h1
    by_cases hr : r = .res .wait
    · subst hr
      exact ⟨k, hnew, h2⟩
    · obtain ⟨rest, hrest, hkind⟩ := Eng.spanResult_shape (env := env) (i := w.inst) (o := w.obj) e' ob.task r hr
      rw [hrest, applyAll_cons]
      have happ : (s.st.applyAll pre).apply (.endTask w.inst w.obj (Eng.endErr e' w.inst w.obj ob.task r)) =
          { s.st.applyAll pre with log := .finished k (Eng.endErr e' w.inst w.obj ob.task r) :: (s.st.applyAll pre).log } := by
        unfold SpanSt.apply
        dsimp only
        rw [h1]
      have hwf2 := hwf.apply (.endTask w.inst w.obj (Eng.endErr e' w.inst w.obj ob.task r))
      rw [happ] at hwf2 ⊢
      obtain ⟨k1, k2⟩ := spans_kept (i := w.inst) (o := w.obj) (ops := rest) hwf2 (fun op hop => by
        rcases hkind with ⟨rfl, _⟩ | hf
        · rw [List.mem_singleton] at hop; exact Or.inr hop
        · exact Or.inl (hf op hop))
      have hnew2 : Newest (.finished k (Eng.endErr e' w.inst w.obj ob.task r) :: (s.st.applyAll pre).log) k w.inst w.obj :=
        ⟨OwnedBy.mono hnew.1, fun m hm => hnew.2 m (owned_finished.1 hm)⟩
      refine ⟨k, ⟨(k1 k).2 hnew2.1, fun m hm => hnew2.2 m ((k1 m).1 hm)⟩, ?_⟩
      rw [k2 k hnew2.1, finishes_finished, if_pos rfl, h2]
      cases r with
      | err err => rfl
      | panic m => rfl
      | res r =>
        cases r with
        | wait => exact absurd rfl hr
        | fail => exact absurd rfl hnf
        | _ => rfl

open SpanSt in
/-- The operations after an evaluation finish the newest span with the result of the evaluation. -/
theorem result_tail {i o : Nat} (e : Eng) (t : TaskRef) (r : Eng.EvalOut) (hr : r ≠ .res .fail) :
    Tail i o (Eng.spanResult env e i o t r) (spanEnd t r) := by
  by_cases hw : r = .res .wait
  · subst hw; exact .nil
  · obtain ⟨rest, hrest, hkind⟩ := Eng.spanResult_shape (env := env) (i := i) (o := o) e t r hw
    rw [hrest]
    have : spanEnd t r = [Eng.endErr e i o t r] := by
      cases r with
      | err err => rfl
      | panic m => rfl
      | res r =>
        cases r with
        | wait => exact absurd rfl hw
        | fail => exact absurd rfl hr
        | _ => rfl
    rw [this]
    refine .close _ (fun op hop => ?_)
    rcases hkind with ⟨rfl, _⟩ | hf
    · rw [List.mem_singleton] at hop; exact Or.inr hop
    · exact Or.inl (hf op hop)

open SpanSt in
/-- C92, attempts: an evaluation of a task makes attempts to evaluate its activity, and each attempt has a span of its own. The
span of an attempt that is followed by another one is finished with the error of the attempt, the last one with the result of the
evaluation. All calls of activities are made by these attempts. Earlier spans of the task are not touched.

A round of an iterator that has no further value makes no attempt. -/
theorem C92_attempts (h : Traced env s) {i o : Nat} {t : TaskRef} {e' : Eng} {r : Eng.EvalOut} (hev : Evaluates env s.eng i o t e' r)
    (hst : (s.eng.obj? i o).map (·.status) ≠ some .waiting) {td : TaskDef} (htd : s.eng.taskDef? i t = some td) :
    (td.kind = .iterator ∧ spansOf (s.step env).st.log (.task i o) = spansOf s.st.log (.task i o) ∧ ∀ j, calls e' j = calls s.eng j) ∨
    ∃ a as n ks, Retried env i o a as n ∧ (∀ j, calls a.before j = calls s.eng j) ∧ (∀ j, calls e' j = calls (lastAttempt a as).after j) ∧
      spansOf (s.step env).st.log (.task i o) = spansOf s.st.log (.task i o) ++ ks ∧
      ks.map (finishes (s.step env).st.log) = (a :: as).dropLast.map (fun b => [b.error]) ++ [spanEnd t r] ∧
      ∀ m, OwnedBy s.st.log m (.task i o) → finishes (s.step env).st.log m = finishes s.st.log m := by
  obtain ⟨hinv, _, hreach⟩ := h.inv
  obtain ⟨⟨w, hn, rfl, rfl, hout⟩, ht⟩ := hev
  cases hob : s.eng.obj? w.inst w.obj with
  | none => rw [hob] at ht; cases ht
  | some ob =>
    rw [hob] at ht hst
    cases ht
    have hob' : (afterPop env s.eng w).obj? w.inst w.obj = some ob := hob
    have htd' : (afterPop env s.eng w).taskDef? w.inst ob.task = some td := htd
    have hlog : (s.step env).st = s.st.applyAll (Eng.spanExec env (afterPop env s.eng w) w.inst w.obj) := by
      show s.st.applyAll (s.eng.spanStep env) = _
      rw [Eng.spanStep_next hn]
    rw [hlog]
    rcases Eng.spanExec_eq hob' htd' hout with ⟨hw, _, _⟩ | ⟨_, hx, heq⟩
    · exact absurd (congrArg some hw) hst
    · have hnf : r ≠ .res .fail := by
        intro hr
        obtain ⟨f, _, hp⟩ := Eng.evalKind_spec (env := env) hob' td
        rw [← hx, hr] at hp; exact hp
      have htail := result_tail (env := env) (i := w.inst) (o := w.obj) e' ob.task r hnf
      have he : e' = ((afterPop env s.eng w).evalKind env w.inst w.obj td).1 := by rw [← hx]
      rw [heq]
      rcases Eng.spanEval_tried (env := env) (i := w.inst) (o := w.obj) (afterPop env s.eng w) td with ⟨hk, hops, hcalls⟩ | ⟨f, hf, a, as, n, h1, h2, h3, h4⟩
      · refine Or.inl ⟨hk, ?_, fun j => ?_⟩
        · rw [hops, List.nil_append]
          have hnw : r ≠ .res .wait := by
            intro hr
            subst hr
            rcases Eng.spanEval_opens (env := env) (i := w.inst) (o := w.obj) (afterPop env s.eng w) td with hy | ⟨_, _, hy⟩
            · have := (hy .none).last
              rw [hops] at this
              cases this
            · rw [← hx] at hy; exact hy rfl
          obtain ⟨rest, hrest, hkind⟩ := Eng.spanResult_shape (env := env) (i := w.inst) (o := w.obj) e' ob.task r hnw
          have hrest2 : ∀ op ∈ rest, Eng.OnFlow op ∨ op = .dropTask w.inst w.obj := by
            intro op hop
            rcases hkind with ⟨rfl, _⟩ | hf
            · rw [List.mem_singleton] at hop; exact Or.inr hop
            · exact Or.inl (hf op hop)
          rw [hrest, applyAll_cons, (flow_kept (hinv.wf.apply _) hrest2).1]
          unfold SpanSt.apply
          dsimp only
          split <;> rfl
        · rw [he]; exact hcalls j
      · obtain ⟨ks, g1, g2, g3⟩ := tried_spans h2 htail hinv.wf
        refine Or.inr ⟨a, as, n, ks, h1, fun j => ?_, fun j => ?_, g1, g2, g3⟩
        · rw [h3]; exact hf j
        · rw [he]; exact h4 j

open SpanSt in
/-- C92, attempts of a resumed task: either no activity is evaluated and no span is started; or the span of the attempt that
waited is finished with the error of the resumed activity, and the activity is evaluated again, each attempt with a span of its
own. -/
theorem C92_resumed (h : Traced env s) {i o : Nat} {t : TaskRef} {e' : Eng} {r : Eng.EvalOut} (hev : Evaluates env s.eng i o t e' r)
    (hst : (s.eng.obj? i o).map (·.status) = some .waiting) {td : TaskDef} (htd : s.eng.taskDef? i t = some td) :
    spansOf (s.step env).st.log (.task i o) = spansOf s.st.log (.task i o) ∨
    ∃ k err a as n ks, Newest s.st.log k i o ∧ finishes (s.step env).st.log k = [some err] ∧ Retried env i o a as n ∧
      (∀ j, calls e' j = calls (lastAttempt a as).after j) ∧
      spansOf (s.step env).st.log (.task i o) = spansOf s.st.log (.task i o) ++ ks ∧
      ks.map (finishes (s.step env).st.log) = (a :: as).dropLast.map (fun b => [b.error]) ++ [spanEnd t r] ∧
      (∃ w, Spec.next env s.eng = some w ∧ (Eng.postOnce env (afterPop env s.eng w) i o).2 = .error err) ∧
      ∀ m, OwnedBy s.st.log m (.task i o) → m ≠ k → finishes (s.step env).st.log m = finishes s.st.log m := by
  obtain ⟨hinv, _, hreach⟩ := h.inv
  obtain ⟨⟨w, hn, rfl, rfl, hout⟩, ht⟩ := hev
  cases hob : s.eng.obj? w.inst w.obj with
  | none => rw [hob] at ht; cases ht
  | some ob =>
    rw [hob] at ht hst
    cases ht
    have hwait : ob.status = .waiting := Option.some.inj hst
    have hob' : (afterPop env s.eng w).obj? w.inst w.obj = some ob := hob
    have htd' : (afterPop env s.eng w).taskDef? w.inst ob.task = some td := htd
    have hlog : (s.step env).st = s.st.applyAll (Eng.spanExec env (afterPop env s.eng w) w.inst w.obj) := by
      show s.st.applyAll (s.eng.spanStep env) = _
      rw [Eng.spanStep_next hn]
    rw [hlog]
    obtain ⟨k, hk1, hk2⟩ := SpanSt.state_opened.1 (hinv.wait _ _ ob hob hwait)
    rcases Eng.spanExec_eq hob' htd' hout with ⟨_, hx, heq⟩ | ⟨hw, _, _⟩
    · have hnf : r ≠ .res .fail := by
        intro hr
        obtain ⟨f, _, hp⟩ := Eng.postKind_spec (env := env) hob' td
        rw [← hx, hr] at hp; exact hp
      have htail := result_tail (env := env) (i := w.inst) (o := w.obj) e' ob.task r hnf
      have he : e' = ((afterPop env s.eng w).postKind env w.inst w.obj td).1 := by rw [← hx]
      rw [heq]
      rcases Eng.spanPost_tried (env := env) (i := w.inst) (o := w.obj) (afterPop env s.eng w) td with hops | ⟨err, ops, f, hops, herr, hf, a, as, n, h1, h2, h3, h4⟩
      · rw [hops, List.nil_append]
        exact Or.inl (htail _ _ hinv.wf hk1).spans
      · rw [hops, List.cons_append, applyAll_cons]
        obtain ⟨d1, _⟩ := endTask_ends hk1 (some err)
        obtain ⟨ks, g1, g2, g3⟩ := tried_spans h2 htail (hinv.wf.apply (.endTask w.inst w.obj (some err)))
        have own : ∀ m, OwnedBy s.st.log m (.task w.inst w.obj) →
            OwnedBy (s.st.apply (.endTask w.inst w.obj (some err))).log m (.task w.inst w.obj) := by
          intro m hm
          rw [← mem_spansOf, d1.spans, mem_spansOf]; exact hm
        refine Or.inr ⟨k, err, a, as, n, ks, hinv.wf.task _ _ _ hk1, ?_, h1, fun j => ?_, g1.trans (by rw [d1.spans]), g2, ⟨w, hn, herr⟩,
          fun m hm hne => ?_⟩
        · rw [g3 k (own k (hinv.wf.task _ _ _ hk1).1), d1.this, hk2]; rfl
        · rw [he]; exact h4 j
        · rw [g3 m (own m hm), d1.other m hm hne]
    · exact absurd hwait hw

/-- C92, nesting: the parent of the span of a task is the span of its flow instance; the parent of the span of a called flow is
the newest span of the calling task, which is not finished when the called flow starts. -/
theorem C92_parent (h : Traced env s) :
    (∀ k i o p, SpanEv.started k (.task i o) p ∈ s.st.log → ∃ q, p = some q ∧ OwnedBy s.st.log q (.flow i)) ∧
    (∀ post pre k j p, s.st.log = post ++ .started k (.flow j) p :: pre → j ≠ 0 →
      ∃ q i o J, s.eng.insts[j]? = some J ∧ J.host = some (i, o) ∧ p = some q ∧ Newest pre q i o ∧ finishes pre q = []) := by
  obtain ⟨_, ht, _⟩ := h.inv
  refine ⟨ht.tree.task, fun post pre k j p heq hj => ?_⟩
  obtain ⟨q, a, b, h1, h2, h3, h4⟩ := ht.tree.flow post pre k j p heq hj
  unfold hostOf at h1
  cases hJ : s.eng.insts[j]? with
  | none => rw [hJ] at h1; cases h1
  | some J => rw [hJ] at h1; exact ⟨q, a, b, J, rfl, h1, h2, h3, h4⟩

/-- C92, flows: every flow instance has exactly one span. That of a called flow is finished without error as often as the flow
was completed, and with an error at most as often as it has failed, at least once if it has failed without an error handler.

Partial: a flow can be completed twice (`C92_negation_flow_twice`) and can fail in its error handler without its span being
finished (`C92_negation_flow_lost`). -/
theorem C92_flow_partial (h : Traced env s) {j : Nat} {I : Inst} (hI : s.eng.insts[j]? = some I) :
    ∃ k, OwnedBy s.st.log k (.flow j) ∧ (∀ m, OwnedBy s.st.log m (.flow j) → m = k) ∧
      (j ≠ 0 → (finishes s.st.log k).countP (fun x => x.isNone) = completions I ∧
        (finishes s.st.log k).countP (fun x => x.isSome) ≤ failures I ∧
        (I.status = .failed → I.defn.eh = none → ∃ err, some err ∈ finishes s.st.log k)) := by
  obtain ⟨hinv, ht, hr⟩ := h.inv
  obtain ⟨k, hk⟩ := (ht.tree.has j).1 (List.getElem?_eq_some_iff.1 hI).1
  have hfin : s.st.fins j = finishes s.st.log k := by unfold SpanSt.fins; rw [hk]
  refine ⟨k, hinv.wf.flow j k hk, fun m hm => ?_, fun hj => ⟨?_, ?_, fun hs he => ?_⟩⟩
  · have := ht.tree.only j m hm
    rw [hk] at this; cases this; rfl
  · have := ht.compl j hj
    unfold Eng.times at this
    rw [hI] at this
    rw [← hfin, ← this]; rfl
  · have := ht.fail j hj
    unfold Eng.times at this
    rw [hI] at this
    rw [← hfin]; exact this
  · have := ht.first j hj ⟨I, hI, he, Eng.failed_reachable hr hI hs⟩
    rw [hfin, List.countP_pos_iff] at this
    obtain ⟨x, hx, hy⟩ := this
    cases x with
    | none => cases hy
    | some err => exact ⟨err, hx⟩

/-- The steps of an action: the report ends the span of the flow. -/
theorem spanStep_cases (c : RunCfg) (r : Run) (hd : r.done = false) :
    (r.step env c = r.report c ∧ r.spanStep c = r.spanReport c) ∨ ((r.step env c).done = false ∧ r.spanStep c = []) := by
  unfold Run.step Run.spanStep
  rw [hd]
  simp only [Bool.false_eq_true, if_false]
  cases hs : r.eng.stack with
  | cons f fs => exact Or.inr ⟨rfl, rfl⟩
  | nil =>
    dsimp only
    cases hI : r.eng.insts[0]? with
    | none => exact Or.inl ⟨rfl, rfl⟩
    | some I =>
      dsimp only
      by_cases hg : r.goesOn c I.status = true
      · rw [if_pos hg, if_pos hg]; exact Or.inr ⟨rfl, rfl⟩
      · rw [if_neg hg, if_neg hg]; exact Or.inl ⟨rfl, rfl⟩

/-- C92, the flow that was started: its span is finished when the run ends, without error if the flow has completed, with the
error of the flow if it has failed, and with the limit error at the step limit.

Partial: if the run ends although the flow is neither completed nor failed, the span is not finished (`C92_negation_stalled`). -/
theorem C92_top_partial (c : RunCfg) {e : Eng} (h : Started env e) (n : Nat) :
    ((after env c e n).done = false → Run.spanEnds env c (Run.start c e) n = []) ∧
    ((after env c e n).done = true → ∃ I, (after env c e n).eng.insts[0]? = some I ∧
      (I.status = .completed → Run.spanEnds env c (Run.start c e) n = [none]) ∧
      (I.status ≠ .completed → (after env c e n).count = c.limit →
        Run.spanEnds env c (Run.start c e) n = [some (limitErr (after env c e n).eng.id c.limit)]) ∧
      (I.status = .failed → (after env c e n).count ≠ c.limit → Run.spanEnds env c (Run.start c e) n = [I.returnError])) := by
  have key : ∀ n, ((after env c e n).done = false ∧ Run.spanEnds env c (Run.start c e) n = []) ∨
      ∃ m, (after env c e m).done = false ∧ after env c e n = (after env c e m).report c ∧
        Run.spanEnds env c (Run.start c e) n = (after env c e m).spanReport c := by
    intro n
    induction n with
    | zero => exact Or.inl ⟨rfl, rfl⟩
    | succ n ih =>
      have h1 : after env c e (n + 1) = (after env c e n).step env c := rfl
      have h2 : Run.spanEnds env c (Run.start c e) (n + 1) = Run.spanEnds env c (Run.start c e) n ++ (after env c e n).spanStep c := rfl
      rcases ih with ⟨hd, hn⟩ | ⟨m, hm, hr, he⟩
      · rw [h1, h2, hn]
        rcases spanStep_cases (env := env) c (after env c e n) hd with ⟨a, b⟩ | ⟨a, b⟩
        · exact Or.inr ⟨n, hd, a, b⟩
        · exact Or.inl ⟨a, b⟩
      · have hd : (after env c e n).done = true := by rw [hr]; exact Run.report_done ..
        have h3 : (after env c e n).spanStep c = [] := by unfold Run.spanStep; rw [hd]; rfl
        have h4 : (after env c e n).step env c = after env c e n := by unfold Run.step; rw [hd]; rfl
        rw [h1, h2, h3, h4, he, List.append_nil]
        exact Or.inr ⟨m, hm, hr, rfl⟩
  rcases key n with ⟨hd, hn⟩ | ⟨m, hm, hr, he⟩
  · exact ⟨fun _ => hn, fun hx => by rw [hd] at hx; cases hx⟩
  · refine ⟨fun hx => ?_, fun _ => ?_⟩
    · rw [hr, Run.report_done] at hx; cases hx
    · have hlen : 0 < (after env c e m).eng.insts.length := by
        rcases h.cases c m with ⟨h1, _⟩ | ⟨m', _, _, _, h3, _⟩
        · exact h1.len
        · rw [show after env c e m = _ from h3, Run.report_done] at hm; cases hm
      obtain ⟨I, J, hI, hJ, hs, hre, hc, _, hid, _⟩ := report_results (c := c) hlen
      rw [hr, hc, hid]
      refine ⟨J, hJ, fun hx => ?_, fun hx hl => ?_, fun hx hl => ?_⟩
      · rw [he]
        unfold Run.spanReport
        rw [hI]
        dsimp only
        rw [if_neg (fun hy => hy.2 (hs ▸ hx)), hs.symm.trans hx]
      · rw [he]
        unfold Run.spanReport
        rw [hI]
        dsimp only
        rw [if_pos ⟨hl, hs ▸ hx⟩]
      · rw [he]
        unfold Run.spanReport
        rw [hI]
        dsimp only
        rw [if_neg (fun hy => hl hy.1), hs.symm.trans hx, hre]

/-! ### Examples -/

/-- The run with tracing of a flow. -/
def traced (env : Env) (d : Def) (n : Nat) : SpanRun := SpanRun.run env (SpanRun.init env "1" "u" d []) n
theorem traced_traced (env : Env) (d : Def) (n : Nat) : Traced env (traced env d n) := ⟨_, _, _, _, _, rfl⟩

/-- An event of the tracer without the error. -/
def shown : SpanEv → Nat × Option SpanOwner × Option Nat
  | .started k w p => (k, some w, p)
  | .finished k err => (k, none, err.map (fun _ => 0))

-- the called flow of `failSub` fails: the spans of X, of the called flow and of A are finished with an error
example : ((traced failSub hostFlow 3).st.log.map shown).reverse =
    [(0, some (.flow 0), none), (1, some (.task 0 0), some 0), (2, some (.flow 1), some 1), (3, some (.task 1 0), some 2),
     (3, none, some 0), (2, none, some 0), (1, none, some 0)] := by decide +kernel
-- while the called flow is executed, the task that called it waits; its span is not finished
example : (((traced failSub hostFlow 1).eng.obj? 0 0).map (·.status)) = some .waiting := by decide
example : ∃ e', Evaluates failSub (traced failSub hostFlow 1).eng 1 0 ⟨false, "X"⟩ e' (.err (.plain "boom")) :=
  ⟨_, ⟨⟨⟨2, 1, 0⟩, rfl, rfl, rfl, rfl⟩, rfl⟩⟩

-- two retries: three spans, each finished with an error; the step evaluates a task that does not wait
example : spansOf (traced alwaysRetriable (retryFlow .user) 1).st.log (.task 0 0) = [1, 2, 3] ∧
    [1, 2, 3].map (fun k => (finishes (traced alwaysRetriable (retryFlow .user) 1).st.log k).map (·.isSome)) = [[true], [true], [true]] := by
  decide +kernel
example : ∃ e' r, Evaluates alwaysRetriable (traced alwaysRetriable (retryFlow .user) 0).eng 0 0 ⟨false, "A"⟩ e' r :=
  ⟨_, _, ⟨⟨⟨1, 0, 0⟩, rfl, rfl, rfl, rfl⟩, rfl⟩⟩
example : ((traced alwaysRetriable (retryFlow .user) 0).eng.obj? 0 0).map (·.status) = some .ready := by decide
-- the resumed task starts its subflow again: its first span is finished with the error, the second one is not yet finished
example : ((traced subFails (retryFlow (.subflow "s")) 2).eng.obj? 0 0).map (·.status) = some .waiting ∧
    spansOf (traced subFails (retryFlow (.subflow "s")) 2).st.log (.task 0 0) = [1] ∧
    spansOf (traced subFails (retryFlow (.subflow "s")) 3).st.log (.task 0 0) = [1, 4] ∧
    [1, 4].map (fun k => (finishes (traced subFails (retryFlow (.subflow "s")) 3).st.log k).map (·.isSome)) = [[true], []] := by
  decide +kernel

/-- Decides `NotReentered`. -/
def stays (o : Nat) : List Ev → Bool
  | [] => true
  | .taskStatus p _ .entered :: tr => (p != o || tr.all (fun ev => match ev with
      | .taskStatus q _ .waiting => q != o
      | _ => true)) && stays o tr
  | _ :: tr => stays o tr

theorem stays_sound {o : Nat} : ∀ {tr : List Ev}, stays o tr = true → NotReentered tr o := by
  intro tr
  induction tr with
  | nil => intro _ post pre t t' heq; cases post <;> cases heq
  | cons ev tr ih =>
    intro h post pre t t' heq
    rcases SpanSt.split_cons heq with ⟨_, hx, hy⟩ | ⟨post', _, hx⟩
    · subst hx; subst hy
      unfold stays at h
      rw [Bool.and_eq_true] at h
      have h1 := h.1
      rw [bne_self_eq_false, Bool.false_or, List.all_eq_true] at h1
      intro hm
      have := h1 _ hm
      simp at this
    · refine ih ?_ post' pre t t' hx
      unfold stays at h
      split at h
      · rename_i hz; cases hz
      · rename_i hz; cases hz
        rw [Bool.and_eq_true] at h; exact h.2
      · rename_i hz; cases hz; exact h

example : ∀ I, (traced failSub hostFlow 3).eng.insts[0]? = some I → NotReentered I.trace 0 := by
  intro I hI
  have h : ((traced failSub hostFlow 3).eng.insts[0]?).map (fun I => stays 0 I.trace) = some true := by decide +kernel
  rw [hI] at h
  exact stays_sound (Option.some.inj h)

/-- When nothing is left to be done, the tracer is not called any more. -/
theorem traced_end {d : Def} {n : Nat} (h1 : (traced env d n).eng.stack = []) (h2 : (traced env d n).eng.queue = []) (m : Nat) :
    (traced env d (n + m)).st = (traced env d n).st ∧ (traced env d (n + m)).eng.insts = (traced env d n).eng.insts := by
  suffices h : (traced env d (n + m)).st = (traced env d n).st ∧ (traced env d (n + m)).eng.insts = (traced env d n).eng.insts ∧
      (traced env d (n + m)).eng.stack = [] ∧ (traced env d (n + m)).eng.queue = [] from ⟨h.1, h.2.1⟩
  induction m with
  | zero => exact ⟨rfl, rfl, h1, h2⟩
  | succ m ih =>
    obtain ⟨a, b, c, f⟩ := ih
    have hn : next env (traced env d (n + m)).eng = none := by
      unfold Spec.next
      split
      · rw [f]; rfl
      · rfl
    have hl : 0 < (traced env d (n + m)).eng.insts.length := Eng.insts_pos (traced_traced env d (n + m)).inv.2.2
    have hst : (traced env d (n + (m + 1))).eng = (traced env d (n + m)).eng.step env := rfl
    rw [Eng.step_idle c hn hl] at hst
    refine ⟨?_, by rw [hst]; exact b, by rw [hst]; exact c, by rw [hst]; exact f⟩
    show ((traced env d (n + m)).st.applyAll ((traced env d (n + m)).eng.spanStep env)) = _
    rw [Eng.spanStep_idle c hn]; exact a

/-- X has two links to the iterator A; if A fails, the activity of B is called and waits. -/
def twiceLooped : Def :=
  { name := "f"
    main := ⟨[tk "X", { tk "A" with kind := .iterator, loop := some {} }, { tk "B" with act := .async }],
      [⟨0, "X", "A", .dependency, ""⟩, ⟨1, "X", "A", .dependency, ""⟩, ⟨2, "A", "B", .error, ""⟩]⟩ }
/-- The first call of the activity of A fails; A iterates `k` times. -/
def twiceLoopedEnv (k : Nat) : Env :=
  { plainEnv with
    iterOn := fun _ _ _ => .ok (.int k)
    act := fun e i o =>
      if taskOf e i o = "A" then (if (evalsOf e 0 ⟨false, "A"⟩).length ≤ 1 then { res := .err (.plain "boom") } else {})
      else if taskOf e i o = "B" then { res := .wait } else {} }

/-- C92 fails for iterators: the only span of A is finished twice, with the error of the failed iteration and, when A is executed
again and has no further element, without an error. -/
theorem C92_negation_twice :
    OwnedBy (traced (twiceLoopedEnv 1) twiceLooped 30).st.log 2 (.task 0 1) ∧
    finishes (traced (twiceLoopedEnv 1) twiceLooped 30).st.log 2 = [none, some (.plain "boom")] :=
  ⟨⟨some 0, by
    have : (traced (twiceLoopedEnv 1) twiceLooped 30).st.log.reverse[3]? = some (.started 2 (.task 0 1) (some 0)) := rfl
    exact List.mem_reverse.1 (List.mem_of_getElem? this)⟩, rfl⟩

/-- C92 fails for a task that is entered again while it waits: the span of B is never finished, although the flow ends and B is
skipped. -/
theorem C92_negation_lost (m : Nat) :
    OwnedBy (traced (twiceLoopedEnv 3) twiceLooped (30 + m)).st.log 4 (.task 0 2) ∧
    finishes (traced (twiceLoopedEnv 3) twiceLooped (30 + m)).st.log 4 = [] ∧
    ((traced (twiceLoopedEnv 3) twiceLooped (30 + m)).eng.insts[0]?).map (fun I => (I.status, (I.objs[2]?).map (·.status))) =
      some (.completed, some .skipped) := by
  obtain ⟨h1, h2⟩ := traced_end (env := twiceLoopedEnv 3) (d := twiceLooped) (n := 30) (by decide +kernel) (by decide +kernel) m
  rw [h1, h2]
  refine ⟨⟨some 0, ?_⟩, rfl, by decide +kernel⟩
  have : (traced (twiceLoopedEnv 3) twiceLooped 30).st.log.reverse[7]? = some (.started 4 (.task 0 2) (some 0)) := rfl
  exact List.mem_reverse.1 (List.mem_of_getElem? this)

/-- The called flow has two tasks that are both skipped. -/
def skippingSub : Env := { noneFollowed with defs := fun u => if u = "r" then .ok (some bothSkipped) else .ok none }

/-- C92 fails for a called flow that is completed twice: its span is finished twice. -/
theorem C92_negation_flow_twice :
    OwnedBy (traced skippingSub hostFlow 30).st.log 2 (.flow 1) ∧ finishes (traced skippingSub hostFlow 30).st.log 2 = [none, none] :=
  ⟨⟨some 1, by
    have : (traced skippingSub hostFlow 30).st.log.reverse[2]? = some (.started 2 (.flow 1) (some 1)) := rfl
    exact List.mem_reverse.1 (List.mem_of_getElem? this)⟩, rfl⟩

/-- C92 fails for a called flow that fails because of a link expression of its error handler: the spans of the called flow and of
the task that called it are never finished. -/
theorem C92_negation_flow_lost (m : Nat) :
    OwnedBy (traced handlerLinkFails hostFlow (20 + m)).st.log 2 (.flow 1) ∧
    finishes (traced handlerLinkFails hostFlow (20 + m)).st.log 2 = [] ∧ finishes (traced handlerLinkFails hostFlow (20 + m)).st.log 1 = [] ∧
    flowStatus (traced handlerLinkFails hostFlow (20 + m)).eng 1 = some .failed := by
  obtain ⟨h1, h2⟩ := traced_end (env := handlerLinkFails) (d := hostFlow) (n := 20) (by decide +kernel) (by decide +kernel) m
  unfold flowStatus
  rw [h1, h2]
  refine ⟨⟨some 1, ?_⟩, rfl, rfl, by decide +kernel⟩
  have : (traced handlerLinkFails hostFlow 20).st.log.reverse[2]? = some (.started 2 (.flow 1) (some 1)) := rfl
  exact List.mem_reverse.1 (List.mem_of_getElem? this)

/-- C92 fails for a run that ends although the flow is neither completed nor failed: the span of the flow is not finished. -/
theorem C92_negation_stalled :
    (after handlerLinkFails { limit := 100 } (Eng.init handlerLinkFails "1" "u" hostFlow []) 40).done = true ∧
    flowStatus (after handlerLinkFails { limit := 100 } (Eng.init handlerLinkFails "1" "u" hostFlow []) 40).eng 0 = some .active ∧
    Run.spanEnds handlerLinkFails { limit := 100 } (Run.start { limit := 100 } (Eng.init handlerLinkFails "1" "u" hostFlow [])) 40 = [] :=
  ⟨by decide +kernel, by decide +kernel, rfl⟩

-- runs that end: the flow completes, fails, and is stopped by the limit
example : Run.spanEnds plainEnv { limit := 100 } (Run.start { limit := 100 } (Eng.init plainEnv "1" "u" bothSkipped [])) 40 = [none] := rfl
example : (Run.spanEnds failSub { limit := 100 } (Run.start { limit := 100 } (Eng.init failSub "1" "u" hostFlow [])) 40).map (·.map Err.msg) =
    [some "boom"] := rfl
example : Run.spanEnds failSub { limit := 1 } (Run.start { limit := 1 } (Eng.init failSub "1" "u" hostFlow [])) 40 = [some (limitErr "1" 1)] := rfl

end Flow
