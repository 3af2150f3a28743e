import Verif.Spec.Recording
import Verif.Proofs.Recording

namespace Flow
open Spec

variable {env : Env} {c : RunCfg}

theorem startsIn_append (l l' : List RecEv) : startsIn (l ++ l') = startsIn l ++ startsIn l' := by
  induction l with
  | nil => rfl
  | cons x l ih => cases x <;> simp [startsIn, ih]

theorem statesIn_append (l l' : List RecEv) : statesIn (l ++ l') = statesIn l ++ statesIn l' := by
  induction l with
  | nil => rfl
  | cons x l ih => cases x <;> simp [statesIn, ih]

theorem endsIn_append (l l' : List RecEv) : endsIn (l ++ l') = endsIn l ++ endsIn l' := by
  induction l with
  | nil => rfl
  | cons x l ih => cases x <;> simp [endsIn, ih]

theorem statesIn_map (l : List Eng) : statesIn (l.map .state) = l := by
  induction l with
  | nil => rfl
  | cons x l ih => simp [statesIn, ih]

theorem startsIn_map (l : List Eng) : startsIn (l.map .state) = [] := by
  induction l with
  | nil => rfl
  | cons x l ih => simp [startsIn, ih]

theorem endsIn_map (l : List Eng) : endsIn (l.map .state) = [] := by
  induction l with
  | nil => rfl
  | cons x l ih => simp [endsIn, ih]

namespace Taped

theorem closed_eq (e : Eng) : closed e = (if e.stack = [] then [e] else []).map .state := by
  unfold closed
  cases h : e.stack <;> simp

/-- Recording does not influence the run. -/
theorem step_run (s : Taped) : (s.step env c).run = s.run.step env c := by
  unfold Taped.step
  by_cases hd : s.run.done = true
  · rw [if_pos hd, Run.step_done hd]
  · rw [if_neg hd]
    have hrep : ∀ (h : s.run.eng.stack = []), (∀ I, s.run.eng.insts[0]? = some I → ¬ s.run.goesOn c I.status = true) →
        s.run.step env c = s.run.report c := by
      intro h hg
      unfold Run.step
      rw [if_neg hd, h]
      dsimp only
      cases hI : s.run.eng.insts[0]? with
      | none => rfl
      | some I => dsimp only; rw [if_neg (hg I hI)]
    cases hk : s.run.eng.stack with
    | cons f fs => rfl
    | nil =>
      dsimp only
      cases hI : s.run.eng.insts[0]? with
      | none => exact (hrep hk (fun I h => by rw [hI] at h; cases h)).symm
      | some I =>
        dsimp only
        by_cases hg : s.run.goesOn c I.status = true
        · rw [if_pos hg]
        · rw [if_neg hg]
          exact (hrep hk (fun J h => by rw [hI] at h; cases h; exact hg)).symm

theorem after_run (s : Taped) (n : Nat) : (after env c s n).run = Run.run env c s.run n := by
  induction n with
  | zero => rfl
  | succ n ih =>
    show (step env c (after env c s n)).run = Run.step env c (Run.run env c s.run n)
    rw [step_run, ih]

theorem step_inputs (s : Taped) : (s.step env c).inputs = s.inputs := by
  unfold Taped.step
  split
  · rfl
  · split
    · rfl
    · split
      · rfl
      · split <;> rfl

theorem after_inputs (s : Taped) (n : Nat) : (after env c s n).inputs = s.inputs := by
  induction n with
  | zero => rfl
  | succ n ih =>
    show (step env c (after env c s n)).inputs = _
    rw [step_inputs, ih]

/-- What the recorder was told by a run that goes on: the start and states. -/
structure Inv (c : RunCfg) (first : List RecEv) (count0 : Int) (s : Taped) : Prop where
  root : ∃ I, s.run.eng.insts[0]? = some I
  log : ∃ L : List Eng, s.log = first ++ L.map .state ∧
    (s.run.eng.stack = [] → (s.run.count = count0 ∧ 0 < c.initStep) ∨ L.getLast? = some s.run.eng) ∧
    s.run.count - count0 + 1 ≤ L.length + firstRecorded c + (if s.run.eng.stack = [] then 0 else 1)
  count : count0 ≤ s.run.count
  begun : s.run.eng.stack ≠ [] → count0 < s.run.count

theorem root_next {e : Eng} (h : ∃ I, e.insts[0]? = some I) : ∃ I, (e.step env).insts[0]? = some I := by
  obtain ⟨I, hI⟩ := h
  obtain ⟨J, h1, _⟩ := (Eng.Ops.step (env := env) (List.getElem?_eq_some_iff.mp hI).1).defn hI
  exact ⟨J, h1⟩

theorem inv_step {first : List RecEv} {count0 : Int} {s : Taped} (h : Inv c first count0 s) (hd : s.run.done = false) :
    (Inv c first count0 (s.step env c) ∧ (s.step env c).run.done = false) ∨ (s.step env c = s.report c ∧ s.run.eng.stack = []) := by
  obtain ⟨L, h1, h2, h3⟩ := h.log
  obtain ⟨I, hI⟩ := h.root
  have hc := h.count
  unfold Taped.step
  rw [if_neg (by simp [hd])]
  cases hk : s.run.eng.stack with
  | cons f fs =>
    have hr : s.run.step env c = { s.run with eng := s.run.eng.step env } := by
      unfold Run.step; rw [if_neg (by simp [hd]), hk]
    have hb := h.begun (by simp [hk])
    refine .inl ⟨⟨?_, ⟨L ++ (if (s.run.eng.step env).stack = [] then [s.run.eng.step env] else []), ?_, ?_, ?_⟩, ?_, ?_⟩, ?_⟩
    · dsimp only; rw [hr]; exact root_next h.root
    · dsimp only; rw [h1, closed_eq, List.map_append, List.append_assoc]
    · dsimp only; rw [hr]
      intro he
      right
      have he' : (s.run.eng.step env).stack = [] := he
      rw [if_pos he', List.getLast?_append]; rfl
    · dsimp only; rw [hr]
      rw [if_neg (by simp [hk])] at h3
      show s.run.count - count0 + 1 ≤ _
      by_cases he : (s.run.eng.step env).stack = []
      · rw [if_pos he, if_pos he]; simp only [List.length_append, List.length_cons, List.length_nil]; push_cast; omega
      · rw [if_neg he, if_neg he]; simp only [List.append_nil]; omega
    · dsimp only; rw [hr]; exact hc
    · dsimp only; rw [hr]; exact fun _ => hb
    · dsimp only; rw [hr]; exact hd
  | nil =>
    dsimp only
    rw [hI]
    dsimp only
    by_cases hg : s.run.goesOn c I.status = true
    · rw [if_pos hg]
      have hr : s.run.step env c = { s.run with eng := s.run.eng.step env, count := s.run.count + 1
                                                hasWork := I.status == .active && !s.run.eng.queue.isEmpty } := by
        unfold Run.step; rw [if_neg (by simp [hd]), hk]; dsimp only; rw [hI]; dsimp only; rw [if_pos hg]
      refine .inl ⟨⟨?_, ⟨L ++ ((s.run.eng.midStep env).toList.map Prod.fst ++ (if (s.run.eng.step env).stack = [] then [s.run.eng.step env] else [])), ?_, ?_, ?_⟩, ?_, ?_⟩, ?_⟩
      · dsimp only; rw [hr]; exact root_next h.root
      · dsimp only; rw [h1, closed_eq, List.map_append, List.append_assoc, List.map_append, List.map_map]; rfl
      · dsimp only; rw [hr]
        intro he
        right
        have he' : (s.run.eng.step env).stack = [] := he
        rw [if_pos he', ← List.append_assoc, List.getLast?_append]; rfl
      · dsimp only; rw [hr]
        rw [if_pos hk] at h3
        show s.run.count + 1 - count0 + 1 ≤ _
        by_cases he : (s.run.eng.step env).stack = []
        · rw [if_pos he, if_pos he]; simp only [List.length_append, List.length_cons, List.length_nil]; push_cast; omega
        · rw [if_neg he, if_neg he]; simp only [List.append_nil, List.length_append]; push_cast; omega
      · dsimp only; rw [hr]; show count0 ≤ s.run.count + 1; omega
      · dsimp only; rw [hr]; intro _; show count0 < s.run.count + 1; omega
      · dsimp only; rw [hr]; exact hd
    · rw [if_neg hg]; exact .inr ⟨rfl, rfl⟩

/-- A recorded run goes on, or it has reported once. -/
theorem after_cases {first : List RecEv} {count0 : Int} {s : Taped} (h : Inv c first count0 s) (hd : s.run.done = false) (n : Nat) :
    (Inv c first count0 (after env c s n) ∧ (after env c s n).run.done = false) ∨
    ∃ m, m < n ∧ Inv c first count0 (after env c s m) ∧ (after env c s m).run.done = false ∧ (after env c s m).run.eng.stack = [] ∧
      after env c s n = (after env c s m).report c := by
  induction n with
  | zero => exact .inl ⟨h, hd⟩
  | succ n ih =>
    rcases ih with ⟨h1, h2⟩ | ⟨m, hm, h1, h2, h2', h3⟩
    · rcases inv_step (env := env) h1 h2 with h' | ⟨h', hk⟩
      · exact .inl h'
      · exact .inr ⟨n, by omega, h1, h2, hk, h'⟩
    · refine .inr ⟨m, by omega, h1, h2, h2', ?_⟩
      show step env c (after env c s n) = _
      rw [h3]
      unfold Taped.step
      rw [if_pos]
      exact Run.report_done _

theorem start_inv {e0 e : Eng} {inputs : AMap String Val} {orig : String} {I : Inst} (he : e.insts[0]? = some I) (hk : e.stack = []) :
    Inv c ((e0.flowRec inputs orig).map .start) (if 0 < c.initStep then c.initStep - 1 else 0) (start c e0 e inputs orig) := by
  refine ⟨⟨I, he⟩, ⟨if 0 < c.initStep then [] else [e], ?_, ?_, ?_⟩, ?_, ?_⟩
  · unfold Taped.start
    dsimp only
    split <;> rfl
  · intro _
    by_cases hc : 0 < c.initStep
    · exact .inl ⟨rfl, hc⟩
    · right; rw [if_neg hc]; rfl
  · show (if 0 < c.initStep then c.initStep - 1 else 0) - (if 0 < c.initStep then c.initStep - 1 else 0) + 1 ≤ _
    unfold Spec.firstRecorded
    have hk' : (start c e0 e inputs orig).run.eng.stack = [] := hk
    rw [if_pos hk']
    by_cases hc : 0 < c.initStep
    · rw [if_pos hc, if_pos hc, if_pos hc]; simp
    · rw [if_neg hc, if_neg hc, if_neg hc]; simp
  · exact Int.le_refl _
  · intro h; exact absurd hk h

/-- The return data is fixed once. -/
theorem fix_again (K : Inst) (a : AMap String Val) : ({ K.fixReturnData with attrs := a } : Inst).fixReturnData.returnData = K.fixReturnData.returnData := by
  cases hr : K.returnData with
  | some v =>
    have h : K.fixReturnData = K := by unfold Inst.fixReturnData; rw [hr]
    rw [h]
    unfold Inst.fixReturnData
    dsimp only
    rw [hr]
  | none =>
    by_cases ho : K.defn.hasOutputs = true
    · have h : ∃ v, K.fixReturnData = { K with returnData := some v } := by
        unfold Inst.fixReturnData; rw [hr]; dsimp only; rw [if_pos ho]; exact ⟨_, rfl⟩
      obtain ⟨v, h⟩ := h
      rw [h]
      rfl
    · have h : K.fixReturnData = K := by unfold Inst.fixReturnData; rw [hr]; dsimp only; rw [if_neg ho]
      rw [h]
      unfold Inst.fixReturnData
      dsimp only
      rw [hr]
      dsimp only
      rw [if_neg ho]

theorem report_facts {r : Run} {K J : Inst} (hK : r.eng.insts[0]? = some K) (hJ : (r.report c).eng.insts[0]? = some J) :
    (r.report c).count = r.count ∧ (r.report c).eng.id = r.eng.id ∧ J.status = K.status ∧
      (J.status = .completed → ∃ x, (r.report c).results.head? = some x ∧ x.data = J.fixReturnData.returnData) := by
  unfold Run.report at *
  rw [hK] at hJ ⊢
  dsimp only at hJ ⊢
  split
  · rename_i hl
    rw [if_pos hl] at hJ
    have hJ' : r.eng.insts[0]? = some J := hJ
    rw [hK] at hJ'; cases hJ'
    exact ⟨rfl, rfl, rfl, fun h => absurd h hl.2⟩
  · rename_i hl
    rw [if_neg hl] at hJ
    cases hs : K.status with
    | completed =>
      rw [hs] at hJ
      have hJ' : (r.eng.modI 0 (fun _ => { K.fixReturnData with attrs := K.fixReturnData.attrs.update (K.fixReturnData.returnData.getD []) })).insts[0]? = some J := hJ
      rw [Eng.modI_at hK] at hJ'
      cases hJ'
      refine ⟨rfl, rfl, ?_, fun _ => ⟨_, rfl, ?_⟩⟩
      · show K.fixReturnData.status = _
        rw [← hs]; unfold Inst.fixReturnData; split
        · rfl
        · split <;> rfl
      · show K.fixReturnData.returnData = _
        exact (fix_again K _).symm
    | failed =>
      rw [hs] at hJ
      have hJ' : r.eng.insts[0]? = some J := hJ
      rw [hK] at hJ'; cases hJ'
      exact ⟨rfl, rfl, hs, fun h => by rw [hs] at h; cases h⟩
    | _ =>
      rw [hs] at hJ
      have hJ' : r.eng.insts[0]? = some J := hJ
      rw [hK] at hJ'; cases hJ'
      exact ⟨rfl, rfl, hs, fun h => by rw [hs] at h; cases h⟩

/-- While no called flow fails, the recorded states are those after the steps, in their order. -/
structure Exact (env : Env) (c : RunCfg) (first : List RecEv) (s0 : Taped) (n : Nat) : Prop where
  log : ∃ L : List Eng, (after env c s0 n).log = first ++ L.map .state ∧
    (L.length : Int) + firstRecorded c = (after env c s0 n).run.count - s0.run.count + (if (after env c s0 n).run.eng.stack = [] then 1 else 0) ∧
    ∀ (k : Nat) (x : Eng), L[k]? = some x → ∃ m, m ≤ n ∧ x = (after env c s0 m).run.eng ∧ x.stack = [] ∧
      (after env c s0 m).run.count - s0.run.count = k + firstRecorded c ∧ (after env c s0 m).run.done = false

theorem exact_step {first : List RecEv} {s0 : Taped} {n : Nat} (h : Exact env c first s0 n) (hr : ∃ I, (after env c s0 n).run.eng.insts[0]? = some I)
    (hd : (after env c s0 (n + 1)).run.done = false) (hm : (after env c s0 n).run.eng.midStep env = none) : Exact env c first s0 (n + 1) := by
  obtain ⟨L, h1, h2, h3⟩ := h.log
  obtain ⟨I, hI⟩ := hr
  have hst : after env c s0 (n + 1) = (after env c s0 n).step env c := rfl
  have hdn : (after env c s0 n).run.done = false := by
    cases hx : (after env c s0 n).run.done with
    | false => rfl
    | true => rw [hst, step_run, Run.step_done hx, hx] at hd; cases hd
  generalize ht : after env c s0 n = t at *
  -- what the step appends
  have key : ∀ (k : Int), (t.step env c).run = { t.run with eng := t.run.eng.step env, count := t.run.count + k, hasWork := (t.step env c).run.hasWork } →
      k = (if t.run.eng.stack = [] then 1 else 0) →
      (t.step env c).log = t.log ++ closed (t.run.eng.step env) → Exact env c first s0 (n + 1) := by
    intro k hrun hk hlog
    have hcount : (t.step env c).run.count = t.run.count + k := by rw [hrun]
    have heng : (t.step env c).run.eng = t.run.eng.step env := by rw [hrun]
    have hk' : k + (if t.run.eng.stack = [] then 0 else 1) = 1 := by rw [hk]; split <;> rfl
    have h2' : (L.length : Int) + firstRecorded c = t.run.count - s0.run.count + k := by rw [h2, hk]
    refine ⟨L ++ (if (t.run.eng.step env).stack = [] then [t.run.eng.step env] else []), ?_, ?_, ?_⟩
    · rw [hst, hlog, h1, closed_eq, List.map_append, List.append_assoc]
    · rw [hst, hcount, heng, List.length_append]
      split
      · simp only [List.length_cons, List.length_nil]; push_cast; omega
      · simp only [List.length_nil]; push_cast; omega
    · intro j x hx
      rw [List.getElem?_append] at hx
      split at hx
      · obtain ⟨m, m1, m2, m3, m4, m5⟩ := h3 j x hx
        exact ⟨m, by omega, m2, m3, m4, m5⟩
      · rename_i hj
        split at hx
        · rename_i he
          have hj0 : j - L.length = 0 := by
            cases hz : j - L.length with
            | zero => rfl
            | succ z => rw [hz] at hx; simp at hx
          rw [hj0] at hx
          cases hx
          refine ⟨n + 1, Nat.le_refl _, by rw [hst, heng], he, ?_, hd⟩
          rw [hst, hcount]
          have : j = L.length := by omega
          subst this
          omega
        · simp at hx
  unfold Taped.step at key
  rw [if_neg (by simp [hdn])] at key
  cases hk : t.run.eng.stack with
  | cons f fs =>
    rw [hk] at key
    dsimp only at key
    refine key 0 ?_ (by simp) rfl
    unfold Run.step
    rw [if_neg (by simp [hdn]), hk]
    simp
  | nil =>
    rw [hk] at key
    dsimp only at key
    rw [hI] at key
    dsimp only at key
    by_cases hg : t.run.goesOn c I.status = true
    · rw [if_pos hg] at key
      refine key 1 ?_ (by simp) ?_
      · unfold Run.step
        rw [if_neg (by simp [hdn]), hk]
        dsimp only
        rw [hI]
        dsimp only
        rw [if_pos hg]
      · dsimp only; rw [hm]; rfl
    · exfalso
      rw [hst] at hd
      have : (t.step env c).run = t.run.report c := by
        rw [step_run]; unfold Run.step; rw [if_neg (by simp [hdn]), hk]; dsimp only; rw [hI]; dsimp only; rw [if_neg hg]
      rw [this, Run.report_done] at hd
      cases hd

end Taped
end Flow
