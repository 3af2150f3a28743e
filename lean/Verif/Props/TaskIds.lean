import Verif.Proofs.TaskIds
import Verif.Props.Spans

/-
C112: the identifier of a task instance, in task events and in the tag `task_instance_id` of spans, tells the rounds of a
repeated task apart.
-/

namespace Flow
open Spec

/-- A state of a run in which the identifiers of task instances are followed. -/
def Tagged (tracing : Bool) (env : Env) (s : IdRun) : Prop :=
  ∃ id uri d ins n, s = IdRun.run tracing env (IdRun.init tracing env id uri d ins) n

/-- The identifier of task instance `o` of flow instance `i`, an instance of task `t`: the one its task events carry. -/
def eventId (s : IdRun) (i o : Nat) (t : TaskRef) : String := taskInstanceId t.id (s.ids.num i o)

/-- Span `k` is one of task instance `o` of flow instance `i`, an instance of task `t`, and tagged with `x`. -/
def SpanId (s : IdRun) (i o : Nat) (t : TaskRef) (k : Nat) (x : String) : Prop :=
  OwnedBy s.ids.st.log k (.task i o) ∧ ∃ y, (k, y) ∈ s.ids.tags ∧ x = taskInstanceId t.id y

variable {env : Env} {s : IdRun} {i o : Nat} {t : TaskRef}

theorem taskInstanceId_inj {a : String} {x y : Option Nat} (h : taskInstanceId a x = taskInstanceId a y) : x = y := by
  have hlen : ∀ n : Nat, ¬ (a ++ "-" ++ toString n = a) := by
    intro n hc
    have h3 : (a ++ "-" ++ toString n).toList.length = a.toList.length := by rw [hc]
    simp at h3
  cases x with
  | none =>
    cases y with
    | none => rfl
    | some k => exact absurd h.symm (hlen k)
  | some j =>
    cases y with
    | none => exact absurd h (hlen j)
    | some k =>
      have h3 : (a ++ "-" ++ toString j).toList = (a ++ "-" ++ toString k).toList := congrArg String.toList h
      simp only [String.toList_append, List.append_assoc, List.append_cancel_left_eq] at h3
      have h4 : toString j = toString k := String.toList_inj.1 h3
      rw [Nat.repr_injective h4]

namespace IdRun

/-- After the task has been entered, if the step enters one. -/
def before (s : IdRun) : IdSt :=
  match s.eng.entering with
  | some (i, o) => s.ids.enter i o
  | none => s.ids

theorem step_ids (b : Bool) (env : Env) (s : IdRun) : (s.step b env).ids = s.before.applyAll (if b then s.eng.spanStep env else []) := rfl

theorem before_st (s : IdRun) : s.before.st = s.ids.st := by unfold before; split <;> rfl
theorem before_tags (s : IdRun) : s.before.tags = s.ids.tags := by unfold before; split <;> rfl
theorem before_count (s : IdRun) : s.before.count = s.ids.count := by unfold before; split <;> rfl

theorem before_num (s : IdRun) (h : s.eng.entering ≠ some (i, o)) : s.before.num i o = s.ids.num i o := by
  unfold before
  split
  · rename_i a b hab
    unfold IdSt.enter
    dsimp only
    rw [if_neg]
    rintro ⟨rfl, rfl⟩
    exact h hab
  · rfl

theorem before_entered (s : IdRun) (h : s.eng.entering = some (i, o)) : s.before.num i o = none := by
  unfold before
  rw [h]
  exact if_pos ⟨rfl, rfl⟩

theorem before_ok (s : IdRun) (h : s.ids.Ok) : s.before.Ok := by
  unfold before
  split
  · exact h.enter _ _
  · exact h

theorem entering_stack {e : Eng} {p : Nat × Nat} (h : e.entering = some p) : e.stack ≠ [] := by
  intro hs
  unfold Eng.entering at h
  rw [hs] at h
  cases h

theorem run_span (env : Env) (id uri : String) (d : Def) (ins : AMap String Val) (n : Nat) :
    (run true env (init true env id uri d ins) n).eng = (SpanRun.run env (SpanRun.init env id uri d ins) n).eng ∧
    (run true env (init true env id uri d ins) n).ids.st = (SpanRun.run env (SpanRun.init env id uri d ins) n).st := by
  induction n with
  | zero => exact ⟨rfl, rfl⟩
  | succ n ih =>
    constructor
    · show (run true env _ n).eng.step env = (SpanRun.run env _ n).eng.step env
      rw [ih.1]
    · show (IdSt.applyAll (before (run true env _ n)) ((run true env _ n).eng.spanStep env)).st = (SpanRun.run env _ n).st.applyAll ((SpanRun.run env _ n).eng.spanStep env)
      rw [IdSt.applyAll_st, before_st, ih.1, ih.2]

end IdRun

theorem Tagged.traced (h : Tagged true env s) : Traced env ⟨s.eng, s.ids.st⟩ := by
  obtain ⟨id, uri, d, ins, n, rfl⟩ := h
  refine ⟨id, uri, d, ins, n, ?_⟩
  obtain ⟨h1, h2⟩ := IdRun.run_span env id uri d ins n
  rw [h1, h2]

theorem Tagged.step {b : Bool} (h : Tagged b env s) : Tagged b env (s.step b env) := by
  obtain ⟨id, uri, d, ins, n, rfl⟩ := h
  exact ⟨id, uri, d, ins, n + 1, rfl⟩

theorem Tagged.wf (h : Tagged true env s) : s.ids.st.WF := h.traced.inv.1.wf

theorem Tagged.ok (h : Tagged true env s) : s.ids.Ok := by
  obtain ⟨id, uri, d, ins, n, rfl⟩ := h
  induction n with
  | zero =>
    refine ⟨(fun _ _ _ h => nomatch h), (fun _ _ _ _ _ h => nomatch h), (fun _ _ h => nomatch h), fun s i o hs => ?_, (fun _ _ _ h => nomatch h)⟩
    obtain ⟨p, hp⟩ := hs
    rcases List.mem_cons.1 hp with hx | hx
    · cases hx
    · cases hx
  | succ n ih =>
    have hn : Tagged true env (IdRun.run true env (IdRun.init true env id uri d ins) n) := ⟨id, uri, d, ins, n, rfl⟩
    show ((IdRun.run true env _ n).step true env).ids.Ok
    rw [IdRun.step_ids]
    exact (IdRun.before_ok _ ih).applyAll _ (by rw [IdRun.before_st]; exact hn.wf)

theorem Tagged.run {b : Bool} (h : Tagged b env s) (m : Nat) : Tagged b env (IdRun.run b env s m) := by
  induction m with
  | zero => exact h
  | succ m ih => exact ih.step

/-- A span that has been started belongs to the same owner later. -/
theorem started_before {st : SpanSt} (w : st.WF) {ops : List SpanOp} {k : Nat} (hlt : k < st.next)
    (h : OwnedBy (st.applyAll ops).log k (.task i o)) : OwnedBy st.log k (.task i o) := by
  induction ops generalizing st with
  | nil => exact h
  | cons op ops ih =>
    have h1 : OwnedBy (st.apply op).log k (.task i o) := by
      refine ih (w.apply op) ?_ h
      unfold SpanSt.apply
      cases op with
      | startTask i o => exact Nat.lt_succ_of_lt hlt
      | startFlow j i o => exact Nat.lt_succ_of_lt hlt
      | endTask i o err => dsimp only; split <;> exact hlt
      | endFlow j err => dsimp only; split <;> exact hlt
      | dropTask i o => exact hlt
    rcases owned_apply h1 with hx | rfl
    · exact hx
    · obtain ⟨p, hp⟩ := h1
      rcases List.mem_cons.1 hp with hq | hq
      · cases hq; exact absurd hlt (Nat.lt_irrefl _)
      · exact ⟨p, hq⟩

theorem IdSt.num_keeps (ops : List SpanOp) : ∀ {x : IdSt}, (∀ op ∈ ops, IdSt.Keeps op) → (x.applyAll ops).num = x.num := by
  induction ops with
  | nil => exact fun _ => rfl
  | cons op ops ih =>
    intro x hk
    have h1 := hk op List.mem_cons_self
    rw [IdSt.applyAll_cons, ih (fun p hp => hk p (List.mem_cons_of_mem _ hp))]
    cases op <;> first | rfl | exact False.elim h1

/-- What a step does to identifiers: nothing, or it repeats a task. -/
theorem Tagged.step_cases (h : Tagged true env s) :
    (∀ op ∈ s.eng.spanStep env, IdSt.Keeps op) ∨
    ∃ i o t e' pre, Evaluates env s.eng i o t e' (.res .again) ∧ s.eng.spanStep env = pre ++ [.dropTask i o] ∧ (∀ op ∈ pre, IdSt.Keeps op) ∧
      ∃ k, (s.ids.st.applyAll pre).task i o = some k := by
  obtain ⟨hinv, _, hr⟩ := h.traced.inv
  have hok := Eng.engOK_reachable hr
  by_cases hs : s.eng.stack = []
  · cases hn : next env s.eng with
    | none => rw [Eng.spanStep_idle hs hn]; exact Or.inl (fun _ h => nomatch h)
    | some w =>
      rw [Eng.spanStep_next hn]
      cases hout : outcome env (afterPop env s.eng w) w.inst w.obj with
      | none => rw [Eng.spanExec_none hout]; exact Or.inl (fun _ h => nomatch h)
      | some x =>
        obtain ⟨e', r⟩ := x
        cases ho : (afterPop env s.eng w).obj? w.inst w.obj with
        | none => unfold Spec.outcome at hout; rw [ho] at hout; cases hout
        | some ob =>
          obtain ⟨td, htd, _⟩ := Eng.exec_outcome ho hout
          obtain ⟨h1, h2⟩ := Eng.spanExec_keeps ho htd hout
          by_cases hra : r = .res .again
          · subst hra
            obtain ⟨pre, hp, hk⟩ := h2 rfl
            refine Or.inr ⟨w.inst, w.obj, ob.task, e', pre, ⟨⟨w, hn, rfl, rfl, hout⟩, ?_⟩, hp, hk, ?_⟩
            · have : s.eng.obj? w.inst w.obj = some ob := ho
              rw [this]; rfl
            · exact Eng.spanExec_again ho htd hout hinv.wf (fun hw => hinv.wait _ _ ob ho hw) hp
          · exact Or.inl (h1 hra)
  · exact Or.inl (fun op hop => Eng.onFlow_keeps (Eng.spanStep_inner hs op hop))

/-- The evaluated task instance of a step is determined. -/
theorem evaluates_same {e e1 e2 : Eng} {i' o' : Nat} {t' : TaskRef} {r r' : Eng.EvalOut} (h : Evaluates env e i o t e1 r)
    (h' : Evaluates env e i' o' t' e2 r') : i = i' ∧ o = o' ∧ t = t' ∧ r = r' := by
  obtain ⟨⟨w, hn, rfl, rfl, ho⟩, ht⟩ := h
  obtain ⟨⟨w', hn', rfl, rfl, ho'⟩, ht'⟩ := h'
  rw [hn] at hn'
  cases hn'
  rw [ho] at ho'
  cases ho'
  rw [ht] at ht'
  cases ht'
  exact ⟨rfl, rfl, rfl, rfl⟩

theorem evaluates_stack {e e1 : Eng} {r : Eng.EvalOut} (h : Evaluates env e i o t e1 r) : e.entering = none := by
  obtain ⟨⟨w, hn, _, _, _⟩, _⟩ := h
  have := (Eng.next_some hn).1
  unfold Eng.entering
  rw [this]

/-- A step that repeats a task. -/
theorem Tagged.again (h : Tagged true env s) {e' : Eng} (hev : Evaluates env s.eng i o t e' (.res .again)) :
    (s.step true env).ids.num i o = some (s.ids.count i o + 1) ∧
    (∀ j p, ¬ (j = i ∧ p = o) → (s.step true env).ids.num j p = s.ids.num j p) ∧
    ∀ k j p y, (k, y) ∈ (s.step true env).ids.tags → OwnedBy (s.step true env).ids.st.log k (.task j p) →
      (k, y) ∈ s.ids.tags ∧ k < s.ids.st.next ∨ s.ids.st.next ≤ k ∧ y = s.ids.num j p := by
  have hb : s.before = s.ids := by unfold IdRun.before; rw [evaluates_stack hev]
  rcases h.step_cases with hk | ⟨i', o', t', e2, pre, hev', hops, hk, c, hc⟩
  · -- such a step forgets a context
    exfalso
    obtain ⟨hinv, _, hr⟩ := h.traced.inv
    obtain ⟨⟨w, hn, rfl, rfl, hout⟩, ht⟩ := hev
    rw [Eng.spanStep_next hn] at hk
    cases ho : (afterPop env s.eng w).obj? w.inst w.obj with
    | none => unfold Spec.outcome at hout; rw [ho] at hout; cases hout
    | some ob =>
      obtain ⟨td, htd, _⟩ := Eng.exec_outcome ho hout
      obtain ⟨pre, hp, _⟩ := (Eng.spanExec_keeps ho htd hout).2 rfl
      rw [hp] at hk
      exact hk _ (List.mem_append_right _ List.mem_cons_self)
  · obtain ⟨rfl, rfl, _, _⟩ := evaluates_same hev hev'
    obtain ⟨a, b, d, f⟩ := IdSt.keeps_all pre h.wf h.ok hk
    have hstep : (s.step true env).ids = (s.ids.applyAll pre).apply (.dropTask i o) := by
      rw [IdRun.step_ids, hb]
      show s.ids.applyAll (s.eng.spanStep env) = _
      rw [hops, IdSt.applyAll_append]; rfl
    have hctx : (s.ids.applyAll pre).st.task i o = some c := by rw [IdSt.applyAll_st]; exact hc
    have hlog : (s.step true env).ids.st.log = (s.ids.applyAll pre).st.log := by rw [hstep, IdSt.apply_st]; rfl
    have htags : (s.step true env).ids.tags = (s.ids.applyAll pre).tags := by
      rw [hstep]; unfold IdSt.apply; dsimp only; rw [hctx]
    refine ⟨?_, fun j p hne => ?_, fun k j p y hy ho => ?_⟩
    · rw [hstep]
      unfold IdSt.apply
      dsimp only
      rw [hctx]
      dsimp only
      rw [if_pos ⟨rfl, rfl⟩, b]
    · rw [hstep]
      unfold IdSt.apply
      dsimp only
      rw [hctx]
      dsimp only
      rw [if_neg hne, a]
    · rw [htags] at hy
      rw [hlog] at ho
      by_cases hlt : s.ids.st.next ≤ k
      · exact Or.inr ⟨hlt, f k j p y hy ho hlt⟩
      · rcases d k y hy with hx | hx
        · exact Or.inl ⟨hx, Nat.lt_of_not_le hlt⟩
        · exact absurd hx hlt

/-- Spans that a step starts are tagged with the present identifier. -/
theorem Tagged.tagged (h : Tagged true env s) {k j p : Nat} {y : Option Nat} (hy : (k, y) ∈ (s.step true env).ids.tags)
    (ho : OwnedBy (s.step true env).ids.st.log k (.task j p)) :
    (k, y) ∈ s.ids.tags ∧ k < s.ids.st.next ∨ s.ids.st.next ≤ k ∧ y = s.before.num j p ∧ s.eng.entering = none := by
  rcases h.step_cases with hk | ⟨i', o', t', e2, pre, hev', hops, hk, c, hc⟩
  · have hw : s.before.st.WF := by rw [IdRun.before_st]; exact h.wf
    obtain ⟨a, b, d, f⟩ := IdSt.keeps_all _ hw (IdRun.before_ok s h.ok) hk
    rw [IdRun.before_st, IdRun.before_tags] at d
    rw [IdRun.before_st] at f
    by_cases hlt : s.ids.st.next ≤ k
    · refine Or.inr ⟨hlt, f k j p y hy ho hlt, ?_⟩
      cases hent : s.eng.entering with
      | none => rfl
      | some q =>
        exfalso
        have hfl := Eng.spanStep_inner (env := env) (IdRun.entering_stack hent)
        rw [IdRun.step_ids, IdSt.applyAll_st, IdRun.before_st] at ho
        rcases owned_all ho with hx | hx
        · exact absurd (IdSt.owned_lt h.wf hx) (Nat.not_lt.2 hlt)
        · exact hfl _ hx
    · rcases d k y hy with hx | hx
      · exact Or.inl ⟨hx, Nat.lt_of_not_le hlt⟩
      · exact absurd hx hlt
  · have hent := evaluates_stack hev'
    have hb : s.before = s.ids := by unfold IdRun.before; rw [hent]
    rw [hb]
    rcases (h.again hev').2.2 k j p y hy ho with hx | ⟨hx, hz⟩
    · exact Or.inl hx
    · exact Or.inr ⟨hx, hz, hent⟩

/-! ### C112 -/

/-- C112, following identifiers changes neither the execution nor the spans of C92. -/
theorem C112_same (env : Env) (id uri : String) (d : Def) (ins : AMap String Val) (n : Nat) :
    (IdRun.run true env (IdRun.init true env id uri d ins) n).eng = Eng.run env (Eng.init env id uri d ins) n ∧
    (IdRun.run true env (IdRun.init true env id uri d ins) n).ids.st = (SpanRun.run env (SpanRun.init env id uri d ins) n).st := by
  obtain ⟨h1, h2⟩ := IdRun.run_span env id uri d ins n
  exact ⟨h1.trans (C92_same env id uri d ins n), h2⟩

/-- C112, every span of a task has one tag `task_instance_id`. -/
theorem C112_tag (h : Tagged true env s) {k : Nat} (hk : OwnedBy s.ids.st.log k (.task i o)) :
    ∃ x, SpanId s i o t k x ∧ ∀ y, SpanId s i o t k y → y = x := by
  obtain ⟨y, hy⟩ := h.ok.has k i o hk
  refine ⟨_, ⟨hk, y, hy, rfl⟩, ?_⟩
  rintro z ⟨_, y', hy', rfl⟩
  rw [h.ok.one k y y' hy hy']

/-- C112, the spans that an execution step starts for a task carry the identifier that the task instance has, that is, the one
of its events: all attempts of one round have the same. -/
theorem C112_round (h : Tagged true env s) {k : Nat} {x : String} (hold : ¬ OwnedBy s.ids.st.log k (.task i o))
    (hk : SpanId (s.step true env) i o t k x) : x = eventId s i o t := by
  obtain ⟨ho, y, hy, rfl⟩ := hk
  have hnew : ¬ k < s.ids.st.next := by
    intro hlt
    rw [IdRun.step_ids, IdSt.applyAll_st, IdRun.before_st] at ho
    exact hold (started_before h.wf hlt ho)
  rcases h.tagged hy ho with ⟨_, hx⟩ | ⟨_, hz, hent⟩
  · exact absurd hx hnew
  · have hb : s.before = s.ids := by unfold IdRun.before; rw [hent]
    rw [hz, hb]; rfl

/-- C112, entering a task gives it the identifier of the task. -/
theorem C112_entered {b : Bool} (hent : s.eng.entering = some (i, o)) : eventId (s.step b env) i o t = t.id := by
  have hops : ∀ op ∈ (if b then s.eng.spanStep env else []), IdSt.Keeps op := by
    intro op hop
    cases b with
    | false => cases hop
    | true => exact Eng.onFlow_keeps (Eng.spanStep_inner (IdRun.entering_stack hent) op hop)
  unfold eventId
  rw [IdRun.step_ids, IdSt.num_keeps _ hops, IdRun.before_entered s hent]; rfl

/-- C112, the identifier of a task instance changes only if it is entered or repeated. -/
theorem C112_kept (h : Tagged true env s) (hent : s.eng.entering ≠ some (i, o))
    (hag : ∀ e', ¬ Evaluates env s.eng i o t e' (.res .again)) (ht : (s.eng.obj? i o).map (·.task) = some t) :
    eventId (s.step true env) i o t = eventId s i o t := by
  unfold eventId
  congr 1
  rcases h.step_cases with hk | ⟨i', o', t', e2, pre, hev', hops, hk, c, hc⟩
  · rw [IdRun.step_ids]
    exact (congrFun (congrFun (IdSt.num_keeps _ hk) i) o).trans (IdRun.before_num s hent)
  · refine (h.again hev').2.1 i o ?_
    rintro ⟨rfl, rfl⟩
    have : (s.eng.obj? i o).map (·.task) = some t' := hev'.2
    rw [ht] at this
    cases this
    exact hag e2 hev'

/-- C112, a task that is repeated gets an identifier that none of its spans has. -/
theorem C112_repeated (h : Tagged true env s) {e' : Eng} (hev : Evaluates env s.eng i o t e' (.res .again)) {k : Nat} {x : String}
    (hk : SpanId (s.step true env) i o t k x) : eventId (s.step true env) i o t ≠ x := by
  obtain ⟨ho, y, hy, rfl⟩ := hk
  obtain ⟨a, _, c⟩ := h.again hev
  intro he
  have := taskInstanceId_inj he
  rw [a] at this
  subst this
  have hle : s.ids.count i o + 1 ≤ s.ids.count i o := by
    rcases c k i o _ hy ho with ⟨hx, hlt⟩ | ⟨_, hx⟩
    · rw [IdRun.step_ids, IdSt.applyAll_st, IdRun.before_st] at ho
      exact h.ok.tag k i o _ (started_before h.wf hlt ho) hx
    · exact h.ok.num i o _ hx.symm
  exact absurd hle (Nat.not_succ_le_self _)

/-- A task instance keeps its number of repetitions as lower bound of what follows, until it is entered again. -/
theorem Tagged.later (h : Tagged true env s) {e' : Eng} (hev : Evaluates env s.eng i o t e' (.res .again)) :
    ∀ m, (∀ j, j < m → (IdRun.run true env (s.step true env) j).eng.entering ≠ some (i, o)) →
      (∃ v, (IdRun.run true env (s.step true env) m).ids.num i o = some v ∧ s.ids.count i o < v) ∧
      s.ids.count i o < (IdRun.run true env (s.step true env) m).ids.count i o ∧
      ∀ k y, OwnedBy (IdRun.run true env (s.step true env) m).ids.st.log k (.task i o) → (k, y) ∈ (IdRun.run true env (s.step true env) m).ids.tags →
        ¬ OwnedBy (s.step true env).ids.st.log k (.task i o) → ∃ v, y = some v ∧ s.ids.count i o < v := by
  intro m
  induction m with
  | zero =>
    intro _
    have ha := (h.again hev).1
    exact ⟨⟨_, ha, Nat.lt_succ_self _⟩, Nat.lt_of_succ_le (h.step.ok.num i o _ ha), fun k y hk _ hn => absurd hk hn⟩
  | succ m ih =>
    intro hne
    obtain ⟨⟨v, hv, hlt⟩, hc, htag⟩ := ih (fun j hj => hne j (Nat.lt_succ_of_lt hj))
    have hm : Tagged true env (IdRun.run true env (s.step true env) m) := h.step.run m
    have hent := hne m (Nat.lt_succ_self m)
    generalize hsm : IdRun.run true env (s.step true env) m = sm at *
    have hrun : IdRun.run true env (s.step true env) (m + 1) = sm.step true env := by rw [← hsm]; rfl
    rw [hrun]
    have hnum : ∃ v, (sm.step true env).ids.num i o = some v ∧ s.ids.count i o < v := by
      rcases hm.step_cases with hk | ⟨i', o', t', e2, pre, hev', _⟩
      · refine ⟨v, ?_, hlt⟩
        rw [IdRun.step_ids]
        exact ((congrFun (congrFun (IdSt.num_keeps _ hk) i) o).trans (IdRun.before_num sm hent)).trans hv
      · by_cases hsame : i = i' ∧ o = o'
        · obtain ⟨rfl, rfl⟩ := hsame
          exact ⟨_, (hm.again hev').1, Nat.lt_succ_of_lt hc⟩
        · exact ⟨v, ((hm.again hev').2.1 i o hsame).trans hv, hlt⟩
    refine ⟨hnum, ?_, fun k y hk hy hn => ?_⟩
    · obtain ⟨v', hv', hlt'⟩ := hnum
      exact Nat.lt_of_lt_of_le hlt' (hm.step.ok.num i o _ hv')
    · rcases hm.tagged hy hk with ⟨hx, hlt'⟩ | ⟨_, hz, he⟩
      · rw [IdRun.step_ids, IdSt.applyAll_st, IdRun.before_st] at hk
        exact htag k y (started_before hm.wf hlt' hk) hx hn
      · rw [IdRun.before_num sm hent, hv] at hz
        exact ⟨v, hz, hlt⟩

/-- C112: with tracing, spans of a task instance that are started before and after it was repeated have different identifiers,
unless it was entered again in between.

Partial: `C112_negation_entered` shows that rounds after entering the task again are not told apart, `C112_untraced` and
`C112_negation_turns` that without tracing no rounds are. -/
theorem C112_distinct_partial (h : Tagged true env s) {e' : Eng} (hev : Evaluates env s.eng i o t e' (.res .again)) {m : Nat}
    (hne : ∀ j, j < m → (IdRun.run true env (s.step true env) j).eng.entering ≠ some (i, o)) {k k' : Nat} {x x' : String}
    (hk : SpanId (s.step true env) i o t k x) (hk' : SpanId (IdRun.run true env (s.step true env) m) i o t k' x')
    (hnew : ¬ OwnedBy (s.step true env).ids.st.log k' (.task i o)) : x ≠ x' := by
  obtain ⟨ho, y, hy, rfl⟩ := hk
  obtain ⟨ho', y', hy', rfl⟩ := hk'
  obtain ⟨v, rfl, hlt⟩ := (h.later hev m hne).2.2 k' y' ho' hy' hnew
  intro he
  have := taskInstanceId_inj he
  subst this
  obtain ⟨_, _, c⟩ := h.again hev
  have hle : v ≤ s.ids.count i o := by
    rcases c k i o _ hy ho with ⟨hx, hl⟩ | ⟨_, hx⟩
    · rw [IdRun.step_ids, IdSt.applyAll_st, IdRun.before_st] at ho
      exact h.ok.tag k i o _ (started_before h.wf hl ho) hx
    · exact h.ok.num i o _ hx.symm
  exact absurd hlt (Nat.not_lt.2 hle)

/-- C112, without tracing the events of a task carry the identifier of the task in every round. -/
theorem C112_untraced (h : Tagged false env s) : eventId s i o t = t.id := by
  obtain ⟨id, uri, d, ins, n, rfl⟩ := h
  have : ∀ i o, (IdRun.run false env (IdRun.init false env id uri d ins) n).ids.num i o = none := by
    induction n with
    | zero => exact fun _ _ => rfl
    | succ n ih =>
      intro i o
      show (IdRun.before (IdRun.run false env (IdRun.init false env id uri d ins) n)).num i o = none
      by_cases hent : (IdRun.run false env (IdRun.init false env id uri d ins) n).eng.entering = some (i, o)
      · exact IdRun.before_entered _ hent
      · rw [IdRun.before_num _ hent]; exact ih i o
  unfold eventId
  rw [this]; rfl

/-! ### Examples -/

/-- A iterates three times. -/
def turns : Def := { name := "f", main := ⟨[{ tk "A" with kind := .iterator, loop := some {} }], []⟩ }
def turnsEnv : Env := { plainEnv with iterOn := fun _ _ _ => .ok (.int 3) }
def turnsRun (b : Bool) (n : Nat) : IdRun := IdRun.run b turnsEnv (IdRun.init b turnsEnv "1" "u" turns []) n

theorem turns_tagged (b : Bool) (n : Nat) : Tagged b turnsEnv (turnsRun b n) := ⟨_, _, _, _, n, rfl⟩

-- the hypothesis of C112_repeated and C112_distinct_partial is met in every round: A is repeated in the first three steps
example : ∀ n ∈ [0, 1, 2], ∃ e', Evaluates turnsEnv (turnsRun true n).eng 0 0 ⟨false, "A"⟩ e' (.res .again) := by
  intro n hn
  simp only [List.mem_cons, List.not_mem_nil, or_false] at hn
  rcases hn with rfl | rfl | rfl
  · exact ⟨_, ⟨_, rfl, rfl, rfl, rfl⟩, rfl⟩
  · exact ⟨_, ⟨_, rfl, rfl, rfl, rfl⟩, rfl⟩
  · exact ⟨_, ⟨_, rfl, rfl, rfl, rfl⟩, rfl⟩

-- the three spans of A, newest first, and the identifiers of its events in the three rounds
example : (turnsRun true 4).ids.tags = [(3, some 2), (2, some 1), (1, none)] := by decide +kernel
example : [0, 1, 2].map (fun n => eventId (turnsRun true n) 0 0 ⟨false, "A"⟩) = ["A", "A-1", "A-2"] := by decide +kernel
-- it is not entered again
example : ∀ j, j < 3 → (IdRun.run true turnsEnv ((turnsRun true 0).step true turnsEnv) j).eng.entering ≠ some (0, 0) := by decide +kernel
-- without tracing the identifiers are equal
example : [0, 1, 2].map (fun n => eventId (turnsRun false n) 0 0 ⟨false, "A"⟩) = ["A", "A", "A"] := by decide +kernel

/-- W has two links to the iterator X, whose first iteration fails; the iterator A is entered if X fails and if X is done. -/
def revisited : Def :=
  { name := "f"
    main := ⟨[tk "W", { tk "X" with kind := .iterator, loop := some {} }, { tk "A" with kind := .iterator, loop := some {} }],
      [⟨0, "W", "X", .dependency, ""⟩, ⟨1, "W", "X", .dependency, ""⟩, ⟨2, "X", "A", .error, ""⟩, ⟨3, "X", "A", .dependency, ""⟩]⟩ }
def revisitedEnv : Env :=
  { plainEnv with
    iterOn := fun e i o => .ok (.int (if taskOf e i o = "X" then 2 else 9))
    act := fun e i o => if taskOf e i o = "X" ∧ (evalsOf e 0 ⟨false, "X"⟩).length ≤ 1 then { res := .err (.plain "boom") } else {} }
def revisits (n : Nat) : IdRun := IdRun.run true revisitedEnv (IdRun.init true revisitedEnv "1" "u" revisited []) n

-- C112_entered, C112_kept: A is entered in steps 14 and 15
example : (revisits 14).eng.entering = some (0, 2) ∧ (revisits 14).ids.num 0 2 = some 2 ∧ (revisits 15).ids.num 0 2 = none := by decide +kernel

/-- C112 fails for a task that is entered again: A is repeated in step 11 and executed again in step 18, and both its spans have the
identifier of the task. -/
theorem C112_negation_entered :
    (∃ e', Evaluates revisitedEnv (revisits 11).eng 0 2 ⟨false, "A"⟩ e' (.res .again)) ∧
    SpanId (revisits 12) 0 2 ⟨false, "A"⟩ 4 "A" ∧ (revisits 12).ids.st.next = 5 ∧ SpanId (revisits 19) 0 2 ⟨false, "A"⟩ 6 "A" := by
  have hown : ∀ (n k m : Nat) (p : Option Nat), (revisits n).ids.st.log[m]? = some (SpanEv.started k (.task 0 2) p) → OwnedBy (revisits n).ids.st.log k (.task 0 2) :=
    fun n k m p h => ⟨p, List.mem_of_getElem? h⟩
  refine ⟨⟨_, ⟨_, rfl, rfl, rfl, rfl⟩, rfl⟩, ⟨hown 12 4 1 (some 0) rfl, none, by decide +kernel, rfl⟩, by decide +kernel,
    hown 19 6 1 (some 0) rfl, none, by decide +kernel, rfl⟩

/-- C112 fails without tracing: A is repeated, and the events before and after carry the same identifier. -/
theorem C112_negation_turns :
    (∃ e', Evaluates turnsEnv (turnsRun false 0).eng 0 0 ⟨false, "A"⟩ e' (.res .again)) ∧
    eventId (turnsRun false 0) 0 0 ⟨false, "A"⟩ = eventId (turnsRun false 1) 0 0 ⟨false, "A"⟩ :=
  ⟨⟨_, ⟨_, rfl, rfl, rfl, rfl⟩, rfl⟩, rfl⟩

end Flow
