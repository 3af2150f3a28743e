import Verif.Props.Faithful
import Verif.Props.Resume

/-
C115: the rest of the run after a mocked task.
-/

namespace Flow
open Spec

variable {env : Env} {g : String → Option TaskIcp} {o : Nat}

namespace Spec

/-- The two runs have got to the same point: the same flow, pending tasks, news to listeners and replies, and the same events except for at
most one call of the activity of `t`, which only the second run has made. -/
structure SameButOneCall (t : TaskRef) (e f : Eng) : Prop where
  flow : ∃ I J, e.insts = [I] ∧ f.insts = [J] ∧ SameFlow I J ∧ I.posted.map Post.name = J.posted.map Post.name ∧
    ∃ X Y c, (c = [] ∨ c = [.evalAct 0 t]) ∧ I.trace.map Ev.name = X ++ Y ∧ J.trace.map Ev.name = X ++ c ++ Y
  pending : e.queue.map (fun w => taskOf e w.inst w.obj) = f.queue.map (fun w => taskOf f w.inst w.obj)
  replies : e.replies = f.replies

end Spec

namespace Faithful

/-- The histories begin with these. -/
def baseOf (I : Inst) (e : Eng) (c : List Ev) : Base :=
  ⟨(I.trace.map Ev.name, c ++ I.trace.map Ev.name), (I.posted.map Post.name, I.posted.map Post.name), (e.replies, e.replies)⟩

theorem sim_refl {e : Eng} {I : Inst} (h1 : e.insts = [I]) (hp : NoSubflows I.defn) (hb : ∀ p ∈ I.tasks, p.2 < I.objs.length)
    (hq : ∀ w ∈ e.queue, w.inst = 0 ∧ w.obj < I.objs.length) (hs : e.stack = []) : SimE (baseOf I e []) I.objs.length id e e := by
  refine ⟨⟨I, I, h1, h1, ?_⟩, rfl, hq, rfl, fun h => absurd hs h, ⟨[], rfl, rfl⟩⟩
  exact ⟨rfl, hp, rfl, rfl, rfl, rfl, rfl, rfl, rfl, rfl, fun _ _ _ _ h => h, fun _ _ => rfl, by simp, hb, ⟨[], rfl, rfl⟩, ⟨[], rfl, rfl⟩⟩

/-- One more call on record in the second state. -/
theorem sim_call {B : Base} {N : Nat} {e f : Eng} {t : TaskRef} (h : SimE B N id e e) (hf : SameButCall 0 o t e f) :
    ∃ I c, e.insts = [I] ∧ (c = [] ∨ c = [.evalAct 0 t]) ∧ SimE (baseOf I e c) N id e f := by
  obtain ⟨⟨I, J, h1, h2, h3⟩, hq, hw, _, hc, _⟩ := h
  rw [h1] at h2
  cases h2
  rcases hf with rfl | rfl
  · exact ⟨I, [], h1, .inl rfl, ⟨I, I, h1, h1, { h3 with trace := ⟨[], rfl, rfl⟩, posted := ⟨[], rfl, rfl⟩ }⟩, hq, hw, rfl, hc, ⟨[], rfl, rfl⟩⟩
  · refine ⟨I, [.evalAct 0 t], h1, .inr rfl, ⟨I, { I with trace := .evalAct o t :: I.trace }, h1, ?_,
      { h3 with trace := ⟨[], rfl, rfl⟩, posted := ⟨[], rfl, rfl⟩ }⟩, hq, hw, rfl, hc, ⟨[], rfl, rfl⟩⟩
    unfold oneCall Eng.modI
    rw [h1]; rfl

theorem same_run {I : Inst} {e0 e f : Eng} {c : List Ev} {N : Nat} {r : Nat → Nat} {t : TaskRef} (hc : c = [] ∨ c = [.evalAct 0 t])
    (h : SimE (baseOf I e0 c) N r e f) : SameButOneCall t e f := by
  refine ⟨?_, ?_, ?_⟩
  · obtain ⟨K, J, h1, h2, h3⟩ := h.insts
    obtain ⟨X, h4, h5⟩ := h3.trace
    obtain ⟨P, h6, h7⟩ := h3.posted
    exact ⟨K, J, h1, h2, same_of_sim h3, h6.trans h7.symm, X, I.trace.map Ev.name, c, hc, h4, by rw [h5]; simp [baseOf]⟩
  · have h1 : e.queue.map (fun w => taskOf e w.inst w.obj) = (e.queue.map (fun w => (w.inst, w.obj))).map (fun p => taskOf e p.1 p.2) := by
      rw [List.map_map]; rfl
    rw [h1, h.queue, List.map_map]
    refine List.map_congr_left fun w hw => ?_
    obtain ⟨h2, h3⟩ := h.items w hw
    show taskOf e w.inst (r w.obj) = taskOf f w.inst w.obj
    unfold taskOf
    rw [h2, h.objEq h3]
  · obtain ⟨X, h1, h2⟩ := h.replies
    exact h1.trans h2.symm

theorem sim_outcome (E : DataOnly env) {B : Base} {N : Nat} {e e' : Eng} {r : Eng.EvalOut} (h : SimE B N id e e) (ho : o < N)
    (hout : outcome env e 0 o = some (e', r)) : SimE B N id e' e' := by
  unfold outcome at hout
  split at hout
  · cases hout
  · split at hout
    · cases hout
    · rename_i td _
      split at hout
      · have := (show SimE B N id (Eng.postKind env e 0 o td).1 (Eng.postKind env e 0 o td).1 from (h.postKind E ho td).1)
        rw [Option.some.inj hout] at this
        exact this
      · split at hout
        · cases hout
        · have := (show SimE B N id (Eng.evalKind env e 0 o td).1 (Eng.evalKind env e 0 o td).1 from (h.evalKind E ho td).1)
          rw [Option.some.inj hout] at this
          exact this

end Faithful

open Faithful in
/-- **C115** From the evaluation of a mocked task on, the run is the same as without the mock if the activity returns the mocked outputs, as long
as the task is not pending again: after any number of steps the status, attributes, links, results and tasks of the flow, the pending tasks, the
news to listeners and the replies are the same, and so are the events, except that without the mock the activity was called once more. For
flows without subflows whose activities and expressions use only the data of the flow and of their task. Missing: as for `C115_attempt_partial`,
several evaluations of the mocked task, and subflows. -/
theorem C115_run_partial (E : DataOnly env) {e e' : Eng} (hr : Reachable env e) {I : Inst} (hone : e.insts = [I]) (hplain : NoSubflows I.defn)
    {t : TaskRef} {r : Eng.EvalOut} (hev : Evaluates env e 0 o t e' r) {ob : Obj} (ho : I.objs[o]? = some ob)
    (hnew : ob.outputs = none ∧ ob.status ≠ .waiting) {td : TaskDef} (htd : I.defn.task? t = some td) (hkind : td.kind = .basic)
    (hretry : td.retry = false) {c : TaskIcp} (h : Replaces env g 0 o I.defn.name t c) (n : Nat)
    (hn : ∀ m < n, ¬ KeyHit (Eng.run { env with icp := g } e (m + 1)) (I.defn.name ++ "-" ++ t.id)) :
    SameButOneCall t (Eng.run env e (n + 1)) (Eng.run { env with icp := g } e (n + 1)) := by
  have hI : e.insts[0]? = some I := by rw [hone]; rfl
  obtain ⟨f, hev', hsame⟩ := C115_evaluation_partial hev hI ho hnew htd (hplain t td htd) hkind hretry h
  have ok := Eng.engOK_reachable hr
  have iok := ok.ok 0 I hI
  have hb : ∀ p ∈ I.tasks, p.2 < I.objs.length := by
    rintro ⟨k, v⟩ hp
    obtain ⟨x, hx, _⟩ := iok.tasks k v (AMap.get?_of_mem_nodup iok.mirror.nodup.1 hp)
    exact (List.getElem?_eq_some_iff.1 hx).1
  have hq : ∀ w ∈ e.queue, w.inst = 0 ∧ w.obj < I.objs.length := by
    intro w hw
    obtain ⟨K, x, hK, hx, _⟩ := ok.queue w hw
    have h0 : w.inst = 0 := by
      have := (List.getElem?_eq_some_iff.1 hK).1
      rw [hone] at this
      simpa using this
    rw [h0, hI] at hK
    cases hK
    exact ⟨h0, (List.getElem?_eq_some_iff.1 hx).1⟩
  have hoN : o < I.objs.length := (List.getElem?_eq_some_iff.1 ho).1
  obtain ⟨⟨w, hw, hwi, hwo, hout⟩, ht⟩ := hev
  obtain ⟨⟨w', hw', hwi', hwo', hout'⟩, _⟩ := hev'
  have hww : w' = w := Option.some.inj ((show Spec.next env e = some w' from hw').symm.trans hw)
  subst hww
  have hst := (Eng.next_some hw).1
  have h1 : SimE (baseOf I e []) I.objs.length id (afterPop env e w') (afterPop env e w') :=
    sim_refl (e := afterPop env e w') hone hplain hb (fun x hx => hq x (List.mem_of_mem_eraseIdx hx)) hst
  have h2 := sim_outcome E h1 hoN hout
  obtain ⟨K, cl, _, hcl, h3⟩ := sim_call h2 hsame
  have hobj : (afterPop env e w').obj? 0 o = some ob := by
    show e.obj? 0 o = some ob
    rw [Eng.obj?_eq hI, ho]
  obtain ⟨td1, ht1, hx1⟩ := Eng.exec_outcome hobj hout
  obtain ⟨td2, ht2, hx2⟩ := Eng.exec_outcome (env := { env with icp := g }) hobj hout'
  rw [ht1] at ht2
  cases ht2
  have s1 : e.step env = Eng.handleResult env e' 0 o ob.task td1.name r := by
    rw [Eng.step_next hw, hwi, hwo, hx1]
  have s2 : e.step { env with icp := g } = Eng.handleResult env f 0 o ob.task td1.name r := by
    rw [Eng.step_next (env := { env with icp := g }) hw', hwi, hwo]
    exact hx2
  have h4 := h3.handleResult E hoN ob.task td1.name r
  rw [id, ← s1, ← s2] at h4
  obtain ⟨N', r', h5⟩ := h4.run E n
  have hrun : Eng.run env (e.step { env with icp := g }) n = Eng.run { env with icp := g } (e.step { env with icp := g }) n := by
    refine Eng.run_with (env := { env with icp := g }) (g := env.icp) n fun m hm => ?_
    refine keyFree_same (k := I.defn.name ++ "-" ++ t.id) (fun k' hk => (h.others k' hk).symm) ?_
    rw [← Eng.run_succ']
    exact hn m hm
  rw [Eng.run_succ', Eng.run_succ', ← hrun]
  exact same_run hcl h5

/-! ### Case -/

/-- `A` is followed by `B`. -/
def mockedPair : Def := { name := "f", main := ⟨[tk "A", tk "B"], deps 0 [("A", "B")]⟩ }
/-- The activity of `A` returns `x = 1`, that of `B` nothing; `A` is mocked with `x = 1`. -/
def pairEnv : Env :=
  { tableEnv (fun t => if t = "A" then { outputs := some (some [("x", .str "1")]) } else {}) (fun _ => .ok true) with
    icp := fun k => AMap.get? [("f-A", mockOne (.str "1"))] k }

theorem pairEnv_replaces : Replaces pairEnv (fun _ => none) 0 0 "f" ⟨false, "A"⟩ (mockOne (.str "1")) := by
  refine ⟨rfl, rfl, rfl, (fun h => nomatch h), by decide, fun p _ => rfl, ?_, rfl, ?_, ?_, ?_, fun _ _ => rfl, fun _ _ => rfl⟩
  · intro k hk
    show none = AMap.get? [("f-A", mockOne (.str "1"))] k
    have : "f-A" ≠ k := fun h => hk h.symm
    simp [AMap.get?, this]
  · intro f hf
    show (if taskOf f 0 0 = "A" then _ else _) = _
    have : taskOf f 0 0 = "A" := by
      unfold taskOf
      cases hx : f.obj? 0 0 with
      | none => rw [hx] at hf; cases hf
      | some ob =>
        rw [hx] at hf
        have h1 : ob.task = ⟨false, "A"⟩ := Option.some.inj hf
        simp [h1]
    rw [if_pos this]
    rfl
  · intro c' h
    change AMap.get? [("f-A", mockOne (.str "1"))] "A" = some c' at h
    cases h
  · intro k c' h
    change AMap.get? [("f-A", mockOne (.str "1"))] k = some c' at h
    simp only [AMap.get?] at h
    split at h
    · cases h; rfl
    · cases h

-- the hypotheses of `C115_run_partial` hold for the first of two tasks
example : DataOnly pairEnv ∧ Reachable pairEnv (Eng.init pairEnv "1" "u" mockedPair []) ∧
    (∃ e' r, Evaluates pairEnv (Eng.init pairEnv "1" "u" mockedPair []) 0 0 ⟨false, "A"⟩ e' r) := by
  have E := dataOnly_table (fun t => if t = "A" then { outputs := some (some [("x", .str "1")]) } else {}) (fun _ => .ok true)
  exact ⟨⟨E.pick, E.act, E.post, E.link, E.inMap, E.outMap, E.settingsOk, E.inSchema, E.outSchema, E.retryCount, E.iterOn, E.cond⟩,
    ⟨"1", "u", mockedPair, [], 0, rfl⟩, _, _, ⟨_, rfl, rfl, rfl, rfl⟩, rfl⟩

-- `A` is not pending again in the run without the mock, and `B` is executed
example : (List.range 20).all (fun m => (Eng.run { pairEnv with icp := fun _ => none } (Eng.init pairEnv "1" "u" mockedPair []) (m + 1)).queue.all
      (fun w => taskOf (Eng.run { pairEnv with icp := fun _ => none } (Eng.init pairEnv "1" "u" mockedPair []) (m + 1)) w.inst w.obj == "B")) ∧
    flowStatus (Eng.run pairEnv (Eng.init pairEnv "1" "u" mockedPair []) 20) 0 = some .completed := by
  decide +kernel

end Flow
