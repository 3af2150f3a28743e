import Verif.Proofs.SpanHost

/-
Spans: the parents and the ends of the spans of flow instances in a run.
-/

namespace Flow
open Spec

namespace Eng

open SpanSt

variable {env : Env} {i o : Nat}

theorem ends_append {j : Nat} {a b : List SpanOp} (h : endsOf j a = []) (g : endsOf j b = []) : endsOf j (a ++ b) = [] := by
  rw [endsOf_append, h, g]; rfl

theorem spanOnce_ends (e : Eng) (j : Nat) : endsOf j (spanOnce env e i o) = [] := by
  refine Ends.ends_nil (fun op hop k err hx => ?_) j
  subst hx
  unfold spanOnce at hop
  rcases List.mem_cons.1 hop with hx | hx
  · cases hx
  · obtain ⟨_, _, hx⟩ := List.mem_map.1 hx
    cases hx

theorem spanRetry_ends (j : Nat) : ∀ (n : Nat) (e : Eng), endsOf j (spanRetry env n e i o) = []
  | 0, e => spanOnce_ends _ j
  | n + 1, e => by
    unfold spanRetry
    refine ends_append (spanOnce_ends _ j) ?_
    split
    · split
      · exact spanRetry_ends j n _
      · rfl
    · rfl

theorem spanActivity_ends (e : Eng) (j : Nat) : endsOf j (spanActivity env e i o) = [] := by
  unfold spanActivity
  refine ends_append (spanOnce_ends _ j) ?_
  split
  · rfl
  · split
    · split
      · rfl
      · split
        · exact spanRetry_ends j _ _
        · rfl
    · rfl

theorem spanEval_ends (e : Eng) (td : TaskDef) (j : Nat) : endsOf j (spanEval env e i o td) = [] := by
  unfold spanEval
  split
  · exact spanActivity_ends _ j
  · unfold spanIter
    split
    · rfl
    · rfl
    · split
      · rfl
      · split
        · rfl
        · exact spanActivity_ends _ j
  · exact spanActivity_ends _ j

theorem spanPost_ends (e : Eng) (td : TaskDef) (j : Nat) : endsOf j (spanPost env e i o td) = [] := by
  unfold spanPost
  split
  · split
    · rfl
    · split
      · split
        · rfl
        · split
          · exact spanRetry_ends j _ _
          · rfl
      · rfl
  · rfl

theorem Ends.congr {e f : Eng} {a b : List SpanOp} (h : Ends e f a) (hb : ∀ j, endsOf j b = endsOf j a) : Ends e f b := by
  refine ⟨fun j hj => ?_, fun j hj => ?_, fun j hj => ?_⟩
  · rw [hb]; exact h.compl j hj
  · rw [hb]; exact h.fail j hj
  · rw [hb]; exact h.first j hj

/-- The execution of a task instance. -/
theorem exec_ends {e : Eng} {ob : Obj} (ho : e.obj? i o = some ob) {e' : Eng} {r : EvalOut} (h : outcome env e i o = some (e', r)) :
    Ends e (exec env e i o) (spanExec env e i o) := by
  obtain ⟨td, htd, hex⟩ := exec_outcome ho h
  obtain ⟨e1, hev, heff⟩ := outcome_evals h
  obtain ⟨ob1, ho1, _⟩ := hev.obj_task ho
  have h1 : Ends e e' [] ∧ ∃ I, e'.insts[i]? = some I := by
    rcases heff with rfl | ⟨st, rfl⟩
    · obtain ⟨I, hI, _⟩ := obj?_some ho1
      exact ⟨.evals hev, I, hI⟩
    · obtain ⟨x, hx, _⟩ := stat_setStatus ho1 st
      obtain ⟨I, hI, _⟩ := obj?_some hx
      exact ⟨(Ends.evals hev).then_ (.setStatus _ _ _ _), I, hI⟩
  rw [hex]
  have h2 := h1.1.then_ (Ends.handleResult (env := env) e' i o ob.task td.name r h1.2)
  rcases spanExec_eq ho htd h with ⟨_, _, hx⟩ | ⟨_, _, hx⟩
  · rw [hx]; exact h2.congr (fun j => by rw [endsOf_append, spanPost_ends]; rfl)
  · rw [hx]; exact h2.congr (fun j => by rw [endsOf_append, spanEval_ends]; rfl)

theorem step_ends {e : Eng} (hok : EngOK e) : Ends e (e.step env) (e.spanStep env) := by
  by_cases hs : e.stack = []
  · have hl : 0 < e.insts.length := by have := hok.ctr; omega
    cases hn : next env e with
    | none => rw [spanStep_idle hs hn, step_idle hs hn hl]; exact .of_insts rfl
    | some w =>
      have h0 : Ends e (afterPop env e w) [] := .of_insts rfl
      rw [spanStep_next hn, step_next hn]
      cases hout : outcome env (afterPop env e w) w.inst w.obj with
      | none => rw [spanExec_none hout, exec_none hout]; exact h0
      | some x =>
        cases ho : (afterPop env e w).obj? w.inst w.obj with
        | none => unfold Spec.outcome at hout; rw [ho] at hout; cases hout
        | some ob => exact h0.then_ (exec_ends ho hout)
  · unfold Eng.step spanStep
    split
    · rename_i hx; exact absurd hx hs
    · rename_i hx; rw [hx]; exact .of_insts rfl
    · rename_i hx; rw [hx]; exact .enterEntry _ _ _ _
    · rename_i hx; rw [hx]
      exact (Ends.calm e _ _ (fun I _ => Calm.release I _)).then_ (.of_insts rfl)

/-- What a step adds to the tree of spans. -/
theorem step_nest {e : Eng} (hok : EngOK e) : ∃ i o, (∀ c, Nest i o c e.insts.length (e.spanStep env) (e.step env).insts.length) ∧
    ∀ (j : Nat) (K : Inst), e.insts.length ≤ j → (e.step env).insts[j]? = some K → K.host = some (i, o) := by
  have none_ : ∀ (ops : List SpanOp), (∀ op ∈ ops, Ending e.insts.length op) → e.spanStep env = ops → (e.step env).insts.length = e.insts.length →
      ∃ i o, (∀ c, Nest i o c e.insts.length (e.spanStep env) (e.step env).insts.length) ∧
        ∀ (j : Nat) (K : Inst), e.insts.length ≤ j → (e.step env).insts[j]? = some K → K.host = some (i, o) := by
    intro ops h1 h2 h3
    refine ⟨0, 0, fun c => by rw [h2, h3]; exact Nest.ending h1 c, fun j K hj hK => ?_⟩
    have := (List.getElem?_eq_some_iff.1 hK).1
    omega
  by_cases hs : e.stack = []
  · have hl : 0 < e.insts.length := by have := hok.ctr; omega
    cases hn : next env e with
    | none => exact none_ [] (fun _ h => nomatch h) (spanStep_idle hs hn) (by rw [step_idle hs hn hl])
    | some w =>
      cases hout : outcome env (afterPop env e w) w.inst w.obj with
      | none =>
        refine none_ [] (fun _ h => nomatch h) ?_ ?_
        · rw [spanStep_next hn, spanExec_none hout]
        · rw [step_next hn, exec_none hout]; rfl
      | some x =>
        obtain ⟨e', r⟩ := x
        cases ho : (afterPop env e w).obj? w.inst w.obj with
        | none => unfold Spec.outcome at hout; rw [ho] at hout; cases hout
        | some ob =>
          obtain ⟨td, htd, hex⟩ := exec_outcome ho hout
          obtain ⟨e1, hev, heff⟩ := outcome_evals hout
          have g0 : Good e (afterPop env e w) :=
            (Good.pop (next_some hn).2.2).trans (Good.ctl rfl rfl rfl rfl rfl (fun _ _ h => h))
          obtain ⟨ok0, ex0⟩ := g0 hok
          have hrd := (hok.queue w (List.mem_of_getElem? (next_some hn).2.2)).ext ex0
          have g1 : Good (afterPop env e w) e' := by
            rcases spanExec_eq ho htd hout with ⟨_, hx, _⟩ | ⟨_, hx, _⟩
            · have := postKind_good (env := env) td hrd; rw [← hx] at this; exact this
            · have := evalKind_good (env := env) td hrd; rw [← hx] at this; exact this
          obtain ⟨ok1, ex1⟩ := g1 ok0
          obtain ⟨I0, hI0, hob0⟩ := obj?_some ho
          obtain ⟨I1, hI1, x1⟩ := ex1 _ I0 hI0
          obtain ⟨ob1, hob1, ht1⟩ := x1.objs _ ob hob0
          have g2 : Good e' (e'.handleResult env w.inst w.obj ob.task td.name r) := by
            rw [← ht1]
            exact Good.handleResult (by rw [obj?_eq hI1, hob1]) (hrd.ext ex1) td.name r
          obtain ⟨_, ex2⟩ := g2 ok1
          refine ⟨w.inst, w.obj, fun c => ?_, fun j K hj hK => ?_⟩
          · rw [spanStep_next hn, step_next hn]
            exact spanExec_nest ho hout c
          · rw [step_next hn, hex] at hK
            have hlt := (List.getElem?_eq_some_iff.1 hK).1
            rw [GraphM.handleResult_len] at hlt
            obtain ⟨K1, hK1⟩ : ∃ K, e'.insts[j]? = some K := ⟨_, List.getElem?_eq_getElem hlt⟩
            obtain ⟨K2, hK2, x2⟩ := ex2 j K1 hK1
            rw [hK] at hK2; cases hK2
            rw [x2.host]
            rcases heff with rfl | ⟨st, rfl⟩
            · exact evals_host hev j K1 hj hK1
            · unfold Eng.setStatus at hK1
              rw [modI_getElem?] at hK1
              cases hK0 : e1.insts[j]? with
              | none => rw [hK0] at hK1; split at hK1 <;> cases hK1
              | some K0 =>
                have h3 := evals_host hev j K0 hj hK0
                rw [hK0] at hK1
                split at hK1
                · cases hK1; rw [(Calm.setTaskStatus K0 w.obj st).host]; exact h3
                · cases hK1; exact h3
  · refine none_ _ ?_ rfl (EnterFrame.step hs).len
    unfold spanStep
    split
    · rename_i hx; exact absurd hx hs
    · exact spanEnter_ending _ _
    · exact (fun _ h => nomatch h)

end Eng

open SpanSt Eng

/-- Which task instance called a flow instance. -/
def hostOf (e : Eng) (j : Nat) : Option (Nat × Nat) := (e.insts[j]?).bind (·.host)

theorem SpanSt.Tree.hosts {st : SpanSt} {n : Nat} {h1 h2 : Nat → Option (Nat × Nat)} (h : Tree st n h1)
    (hk : ∀ j a b, h1 j = some (a, b) → h2 j = some (a, b)) : Tree st n h2 := by
  refine ⟨h.has, h.only, h.task, fun post pre k j p heq hj => ?_⟩
  obtain ⟨q, a, b, h3, h4⟩ := h.flow post pre k j p heq hj
  exact ⟨q, a, b, hk j a b h3, h4⟩

/-- The spans of flow instances. -/
structure TreeInv (s : SpanRun) : Prop where
  tree : Tree s.st s.eng.insts.length (hostOf s.eng)
  compl : ∀ j, j ≠ 0 → s.eng.times j .completed = (s.st.fins j).countP (fun x => x.isNone)
  fail : ∀ j, j ≠ 0 → (s.st.fins j).countP (fun x => x.isSome) ≤ s.eng.times j .failed
  first : ∀ j, j ≠ 0 → s.eng.hit j → 0 < (s.st.fins j).countP (fun x => x.isSome)

theorem TreeInv.step {env : Env} {s : SpanRun} (h : TreeInv s) (w : s.st.WF) (hok : EngOK s.eng) : TreeInv (s.step env) := by
  obtain ⟨hok', hx⟩ := Good.step (env := env) s.eng hok
  obtain ⟨i, o, hn, hh⟩ := step_nest (env := env) hok
  have hl : 0 < s.eng.insts.length := by have := hok.ctr; omega
  have hkeep : ∀ j a b, hostOf s.eng j = some (a, b) → hostOf (s.eng.step env) j = some (a, b) := by
    intro j a b hj
    unfold hostOf at hj ⊢
    cases hI : s.eng.insts[j]? with
    | none => rw [hI] at hj; cases hj
    | some I =>
      obtain ⟨I', hI', x⟩ := hx j I hI
      rw [hI] at hj
      rw [hI']
      show I'.host = _
      rw [x.host]; exact hj
  obtain ⟨t1, t2⟩ := (h.tree.hosts hkeep).all w hl (hn _) (fun j h1 h2 => by
    unfold hostOf
    obtain ⟨K, hK⟩ : ∃ K, (s.eng.step env).insts[j]? = some K := ⟨_, List.getElem?_eq_getElem h2⟩
    rw [hK]; exact hh j K h1 hK)
  have he := step_ends (env := env) hok
  have hcount : ∀ j (p : Option Err → Bool), ((s.step env).st.fins j).countP p = (endsOf j (s.eng.spanStep env)).countP p + (s.st.fins j).countP p := by
    intro j p
    have h1 : (s.step env).st.fins j = _ := t2 j
    rw [h1, List.countP_append, List.countP_reverse]
  refine ⟨t1, fun j hj => ?_, fun j hj => ?_, fun j hj hhit => ?_⟩
  · rw [hcount]
    have h1 := he.compl j hj
    have h2 := h.compl j hj
    show (s.eng.step env).times j .completed = _
    omega
  · rw [hcount]
    have h1 := he.fail j hj
    have h2 := h.fail j hj
    show _ ≤ (s.eng.step env).times j .failed
    omega
  · rw [hcount]
    rcases he.first j hj hhit with h1 | h1
    · have := h.first j hj h1
      omega
    · omega

theorem SpanRun.init_tree (env : Env) (id uri : String) (d : Def) (ins : AMap String Val) : TreeInv (SpanRun.init env id uri d ins) := by
  have hlen : (Eng.init env id uri d ins).insts.length = 1 := by
    have := (StartFrame.startInstance (env := env) 0 (Eng.new id uri d) ins).len
    exact this
  have hno : ∀ j, j ≠ 0 → (Eng.init env id uri d ins).insts[j]? = none := fun j hj => List.getElem?_eq_none (by omega)
  have hstart : ∀ w p k, SpanEv.started k w p ∈ SpanSt.init.log → k = 0 ∧ w = .flow 0 := by
    intro w p k hk
    rcases List.mem_cons.1 hk with hx | hx
    · cases hx; exact ⟨rfl, rfl⟩
    · cases hx
  have hnf : ∀ j, j ≠ 0 → SpanSt.init.fins j = [] := by
    intro j hj
    have : SpanSt.init.flow j = none := if_neg hj
    unfold fins
    rw [this]
  refine ⟨⟨fun j => ?_, fun j s hs => ?_, fun k i o p hk => ?_, fun post pre k j p heq hj => ?_⟩, fun j hj => ?_, fun j hj => ?_, fun j hj hh => ?_⟩
  · show j < (Eng.init env id uri d ins).insts.length ↔ ∃ s, setFlow (fun _ => none) 0 (some 0) j = some s
    rw [hlen]
    unfold setFlow
    split
    · rename_i hj; exact ⟨fun _ => ⟨_, rfl⟩, fun _ => by omega⟩
    · rename_i hj; exact ⟨fun h => absurd (by omega) hj, fun ⟨s, h⟩ => nomatch h⟩
  · obtain ⟨p, hp⟩ := hs
    obtain ⟨rfl, hx⟩ := hstart _ _ _ hp
    cases hx; rfl
  · cases (hstart _ _ _ hk).2
  · have : SpanEv.started k (.flow j) p ∈ SpanSt.init.log := by
      have h1 : SpanSt.init.log = _ := heq
      rw [h1]; exact List.mem_append_right _ List.mem_cons_self
    have := (hstart _ _ _ this).2
    cases this
    exact absurd rfl hj
  · show Eng.times (Eng.init env id uri d ins) j .completed = (SpanSt.init.fins j).countP _
    unfold Eng.times
    rw [hno j hj, hnf j hj]; rfl
  · show (SpanSt.init.fins j).countP _ ≤ _
    rw [hnf j hj]; exact Nat.zero_le _
  · obtain ⟨I, hI, _⟩ := hh
    have hI2 : (Eng.init env id uri d ins).insts[j]? = some I := hI
    rw [hno j hj] at hI2; cases hI2

theorem SpanRun.tree (env : Env) (id uri : String) (d : Def) (ins : AMap String Val) (n : Nat) :
    TreeInv (SpanRun.run env (SpanRun.init env id uri d ins) n) := by
  induction n with
  | zero => exact SpanRun.init_tree env id uri d ins
  | succ n ih =>
    refine ih.step (SpanRun.inv env id uri d ins n).wf ?_
    rw [SpanRun.run_eng]
    exact engOK_run id uri d ins n

end Flow
