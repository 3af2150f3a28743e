import Verif.Proofs.LiftRun
import Verif.Proofs.Mock
import Verif.Props.Intercept

/-
C115: a mocked task goes on as if its activity had returned the mocked outputs.
-/

namespace Flow
open Spec

variable {env : Env} {g : String → Option TaskIcp} {i o : Nat}

namespace Spec

/-- One more call of the activity of task instance `o` of flow instance `i`, an instance of task `t`, is on record. -/
def oneCall (i o : Nat) (t : TaskRef) (e : Eng) : Eng := e.modI i (fun J => { J with trace := .evalAct o t :: J.trace })

/-- The states differ at most in that the second has one more call on record. -/
def SameButCall (i o : Nat) (t : TaskRef) (e f : Eng) : Prop := f = e ∨ f = oneCall i o t e

/-- What the output mapper of the task instance does does not depend on the record of calls. -/
def CallBlind (env : Env) (i o : Nat) : Prop := ∀ (e : Eng) (t : TaskRef), env.outMap (oneCall i o t e) i o = env.outMap e i o

/-- The interceptor `c` mocks task `t` of the flow `name` with certain outputs; without it (`g`) the activity, called for task instance `o`
of flow instance `i`, returns these outputs and does nothing else. Nothing is skipped, all assertions are of the supported type, and no
outputs are invalid. -/
structure Replaces (env : Env) (g : String → Option TaskIcp) (i o : Nat) (name : String) (t : TaskRef) (c : TaskIcp) : Prop where
  mock : env.icp (name ++ "-" ++ t.id) = some c
  skips : c.skipExecution = true
  type : c.type = .mockActivity
  some : c.outputs ≠ []
  once : c.outputs.keys.Nodup
  typed : ∀ p ∈ c.outputs, env.coerceOut t p.1 p.2 = .ok p.2
  others : OnlyAt env g (name ++ "-" ++ t.id)
  absent : g (name ++ "-" ++ t.id) = none
  act : ∀ f, (f.obj? i o).map (·.task) = .some t → env.act f i o = { res := .done, outputs := .some (.some c.outputs) }
  noSkip : ∀ c', env.icp t.id = .some c' → c'.skip = false
  noErr : ∀ k c', env.icp k = .some c' → c'.assertErr = false
  valid : ∀ f, (f.obj? i o).map (·.task) = .some t → env.outSchema f i o = none
  blind : CallBlind env i o

end Spec

namespace Faithful

theorem modI_same {e : Eng} {K : Inst} (hK : e.insts[i]? = some K) {f f' : Inst → Inst} (h : f K = f' K) : e.modI i f = e.modI i f' := by
  unfold Eng.modI
  congr 1
  apply List.ext_getElem?
  intro j
  rw [List.getElem?_modify, List.getElem?_modify]
  by_cases hj : i = j
  · subst hj
    rw [hK]
    simp [h]
  · simp [hj]

/-- Storing the outputs does not depend on the list of calls. -/
theorem store_same (hb : CallBlind env i o) (t : TaskId) (td : TaskDef) {e : Eng} {K : Inst} (hK : e.insts[i]? = some K) (t' : TaskRef) :
    (Eng.storeOutputs env (e.modI i (fun J => { J with trace := .evalAct o t' :: J.trace })) i o t td) =
      ((Eng.storeOutputs env e i o t td).1.modI i (fun J => { J with trace := .evalAct o t' :: J.trace }), (Eng.storeOutputs env e i o t td).2) := by
  have hmap : ∀ (f : Eng) (n : String), Eng.outputMapper env (f.modI i (fun J => { J with trace := .evalAct o t' :: J.trace })) i o n =
      ((Eng.outputMapper env f i o n).1.modI i (fun J => { J with trace := .evalAct o t' :: J.trace }), (Eng.outputMapper env f i o n).2) := by
    intro f n
    unfold Eng.outputMapper
    rw [show env.outMap (f.modI i _) i o = _ from hb f t']
    cases env.outMap f i o with
    | none => rfl
    | some v =>
      obtain ⟨vals, err⟩ := v
      dsimp only
      rw [Eng.modI_modI, Eng.modI_modI]
  have hacc : Eng.accumulate (e.modI i (fun J => { J with trace := .evalAct o t' :: J.trace })) i o t =
      ((e.accumulate i o t).1.modI i (fun J => { J with trace := .evalAct o t' :: J.trace }), (e.accumulate i o t).2) := by
    unfold Eng.accumulate
    rw [Eng.modI_self hK, hK]
    dsimp only
    split
    · rw [Eng.modI_modI, Eng.modI_modI]; rfl
    · rw [Eng.modI_modI, Eng.modI_modI]; rfl
    · rfl
  unfold Eng.storeOutputs
  split
  · rw [hacc]
    generalize e.accumulate i o t = r
    obtain ⟨e1, _ | err⟩ := r
    · unfold Eng.andThen
      dsimp only
      split
      · exact hmap _ _
      · rfl
    · rfl
  · exact hmap _ _

/-- The instance and the task object before the outputs are set. -/
def Blank (i o : Nat) (name : String) (t : TaskRef) (e : Eng) : Prop :=
  ∃ K x, e.insts[i]? = some K ∧ K.defn.name = name ∧ K.objs[o]? = some x ∧ x.outputs = none ∧ x.task = t

theorem Blank.mod {name : String} {t : TaskRef} {e : Eng} (h : Blank i o name t e) (f : Obj → Obj)
    (hf : ∀ x, (f x).outputs = x.outputs ∧ (f x).task = x.task) : Blank i o name t (e.modI i (fun I => I.modO o f)) := by
  obtain ⟨K, x, hK, hd, hx, hn, ht⟩ := h
  exact ⟨K.modO o f, f x, Eng.modI_self hK _, hd, by simp [Inst.modO, hx], by rw [(hf x).1, hn], by rw [(hf x).2, ht]⟩

theorem Blank.inputMapper {name : String} {t : TaskRef} {e : Eng} (h : Blank i o name t e) (env : Env) (n : String) :
    Blank i o name t (e.applyInputMapper env i o n).1 := by
  unfold Eng.applyInputMapper
  split
  · exact h
  · exact h
  · exact h.mod _ fun _ => ⟨rfl, rfl⟩

theorem Blank.interceptor {name : String} {t : TaskRef} {e : Eng} (h : Blank i o name t e) (env : Env) (ob : Obj) :
    Blank i o name t (e.inputInterceptor env i o ob).1 := by
  unfold Eng.inputInterceptor
  split
  · exact h
  · exact h.mod _ fun _ => ⟨rfl, rfl⟩

theorem assertion_ok (h : ∀ k c, env.icp k = some c → c.assertErr = false) (e : Eng) (ob : Obj) : e.assertion env i ob = (e, none) := by
  unfold Eng.assertion Eng.icpOut
  split
  · rename_i tc heq
    split at heq
    · cases heq
    · rw [h _ _ heq]; rfl
  · rfl

theorem andThen_pure (r : Eng × Option Err) {k : Eng → Eng × Option Err} (hk : ∀ e, k e = (e, none)) : Eng.andThen r k = r := by
  obtain ⟨e, _ | err⟩ := r
  · exact hk e
  · rfl

end Faithful

open Faithful in
/-- **C115** One attempt to evaluate a mocked task gives the same result and leaves the same state, except that the call of the activity is on record, as
without the mock if the activity returns the mocked outputs and does nothing else. Missing for the full statement: outputs are
validated for the activity but not for the mock (`C115_negation`), hence `Replaces.valid`. For the rest of the run see `C115_run_partial`; in general the
environment might tell the two states apart. -/
theorem C115_attempt_partial {e : Eng} {I : Inst} (hI : e.insts[i]? = some I) {ob : Obj} (ho : I.objs[o]? = some ob) (hnone : ob.outputs = none)
    {td : TaskDef} (htd : I.defn.task? ob.task = some td) (hact : ∀ u, td.act ≠ .subflow u)
    {c : TaskIcp} (h : Replaces env g i o I.defn.name ob.task c) :
    (e.evalOnce { env with icp := g } i o).2 = (e.evalOnce env i o).2 ∧
      SameButCall i o ob.task (e.evalOnce env i o).1 (e.evalOnce { env with icp := g } i o).1 := by
  show (e.evalOnce (env.with g) i o).2 = _ ∧ SameButCall i o ob.task _ (e.evalOnce (env.with g) i o).1
  obtain ⟨hc, hmock, hty, hne, hnd, hco, hg, hg0, ha, hsk, hae, hs, hb⟩ := h
  have hkey : ob.task.id ≠ I.defn.name ++ "-" ++ ob.task.id := by
    intro h
    have h1 : ob.task.id.toList.length = (I.defn.name ++ "-" ++ ob.task.id).toList.length := congrArg (fun s : String => s.toList.length) h
    rw [icpKey_toList] at h1
    simp at h1
    omega
  have hgt : g ob.task.id = env.icp ob.task.id := hg _ hkey
  have hae' : ∀ k c', (env.with g).icp k = some c' → c'.assertErr = false := by
    intro k c' h
    by_cases hk : k = I.defn.name ++ "-" ++ ob.task.id
    · subst hk
      have h : g _ = some c' := h
      rw [hg0] at h; cases h
    · exact hae k c' ((hg k hk).symm.trans h)
  have hB : Blank i o I.defn.name ob.task e := ⟨I, ob, hI, rfl, ho, hnone, rfl⟩
  have hobj : e.obj? i o = some ob := by rw [Eng.obj?_eq hI, ho]
  have htd' : e.taskDef? i ob.task = some td := by unfold Eng.taskDef?; rw [hI]; exact htd
  unfold Eng.evalOnce
  rw [hobj]
  dsimp only
  rw [htd']
  dsimp only
  rw [show Eng.applyInputMapper (env.with g) e i o td.name = Eng.applyInputMapper env e i o td.name from rfl]
  have hB1 := hB.inputMapper env td.name
  generalize Eng.applyInputMapper env e i o td.name = q at hB1
  obtain ⟨e1, _ | err⟩ := q
  rotate_left
  · exact ⟨rfl, Or.inl rfl⟩
  dsimp only at hB1 ⊢
  have hin : Eng.inputInterceptor (env.with g) e1 i o ob = Eng.inputInterceptor env e1 i o ob := by
    unfold Eng.inputInterceptor Eng.icpIn
    rw [show (env.with g).icp ob.task.id = env.icp ob.task.id from hgt]
    rfl
  rw [hin]
  have hp2 : (Eng.inputInterceptor env e1 i o ob).2 = true := by
    unfold Eng.inputInterceptor Eng.icpIn
    split
    · rfl
    · rename_i tc h
      show (!tc.skip) = true
      rw [hsk tc h]; rfl
  have hB2 := hB1.interceptor env ob
  generalize Eng.inputInterceptor env e1 i o ob = p at hp2 hB2
  obtain ⟨f, b⟩ := p
  dsimp only at hp2 hB2
  subst hp2
  obtain ⟨K, x, hK, hd, hx, hxn, hxt⟩ := hB2
  unfold Eng.evalWith
  dsimp only
  rw [if_neg (show ¬ (true = false) by simp), if_neg (show ¬ (true = false) by simp)]
  rw [show (env.with g).inSchema f i o = env.inSchema f i o from rfl]
  cases env.inSchema f i o with
  | some err => exact ⟨rfl, Or.inl rfl⟩
  | none =>
    dsimp only
    -- the mocked attempt
    have hm : Eng.mocked env f i ob = true := by
      unfold Eng.mocked Eng.icpOut
      rw [hK]; dsimp only
      rw [hd, hc]; exact hmock
    have hm' : Eng.mocked (env.with g) f i ob = false := by
      unfold Eng.mocked Eng.icpOut
      rw [hK]; dsimp only
      rw [hd, show (env.with g).icp _ = _ from hg0]
    rw [if_pos hm, if_neg (show ¬ (Eng.mocked (env.with g) f i ob = true) by rw [hm']; simp)]
    let M : Eng := f.modI i (fun J => J.modO o (fun y => { y with outputs := some ((y.outputs.getD []).update c.outputs) }))
    have hMapM : c.outputs.mapM (fun p => (env.coerceOut ob.task p.1 p.2).map (fun v => (p.1, v))) = .ok c.outputs := by
      clear hne hc hty hnd ha
      generalize c.outputs = l at hco
      induction l with
      | nil => rfl
      | cons p l ih =>
        rw [List.mapM_cons, hco p (by simp), ih (fun q hq => hco q (by simp [hq]))]
        rfl
    have h1 : Eng.afterDone env f i o ob td = Eng.doneOrErr (Eng.storeOutputs env M i o ob.task.id td) := by
      unfold Eng.afterDone
      rw [hs f (by rw [Eng.obj?_eq hK, hx]; exact congrArg some hxt)]
      dsimp only
      have : Eng.outputInterceptor env f i o ob td = (M, none) := by
        unfold Eng.outputInterceptor Eng.icpOut
        rw [hK]
        dsimp only
        rw [hd, hc]
        dsimp only
        rw [if_neg (fun h0 => hne (List.length_eq_zero_iff.1 h0)), hty]
        dsimp only
        rw [hMapM]
      rw [this]
      show Eng.doneOrErr (Eng.andThen (Eng.storeOutputs env M i o ob.task.id td) _) = _
      rw [andThen_pure _ (fun e2 => assertion_ok hae e2 ob)]
    -- the attempt that calls the activity
    let R : Eng := M.modI i (fun J => { J with trace := .evalAct o ob.task :: J.trace })
    have hcall : Eng.callActivity (env.with g) f i o ob td = (R, .ok true, false) := by
      unfold Eng.callActivity
      dsimp only
      split
      · rename_i u hu
        exact absurd hu (hact u)
      · rw [show (env.with g).act = env.act from rfl, ha _ (by rw [Eng.obj?_eq (Eng.modI_self hK _)]; dsimp only; rw [hx]; exact congrArg some hxt)]
        dsimp only
        have : Eng.applyActOut (f.modI i (fun I => { I with trace := .evalAct o ob.task :: I.trace })) i o
            { res := .done, outputs := some (some c.outputs) } = R := by
          unfold Eng.applyActOut
          dsimp only
          show _ = (f.modI i _).modI i _
          rw [Eng.modI_modI, Eng.modI_modI]
          refine modI_same hK ?_
          show ({ ({ K with trace := _ :: K.trace, attrs := K.attrs.update [] } : Inst).modO o _ with .. } : Inst) = _
          have hu : AMap.update ([] : AMap String Val) c.outputs = c.outputs := Lift.update_fresh (m := []) hnd
          unfold Inst.modO
          dsimp only
          congr 1
          apply List.ext_getElem?
          intro j
          rw [List.getElem?_modify, List.getElem?_modify]
          by_cases hj : o = j
          · subst hj
            rw [hx]
            simp [hxn, hu]
          · simp [hj]
        rw [this]
    have hMi : M.insts[i]? = some (K.modO o (fun y => { y with outputs := some ((y.outputs.getD []).update c.outputs) })) := Eng.modI_self hK _
    have h2 : Eng.afterDone (env.with g) R i o ob td = Eng.doneOrErr (Eng.storeOutputs env R i o ob.task.id td) := by
      unfold Eng.afterDone
      rw [show (env.with g).outSchema R i o = none from hs R (by
        rw [Eng.obj?_eq (Eng.modI_self hMi _)]
        simp [Inst.modO, hx, hxt])]
      dsimp only
      have : Eng.outputInterceptor (env.with g) R i o ob td = (R, none) := by
        unfold Eng.outputInterceptor Eng.icpOut
        rw [show R.insts[i]? = _ from Eng.modI_self hMi _]
        dsimp only
        rw [show (env.with g).icp _ = none from (by
          show g (K.defn.name ++ "-" ++ ob.task.id) = none
          rw [hd]; exact hg0)]
      rw [this]
      show Eng.doneOrErr (Eng.andThen (Eng.storeOutputs (env.with g) R i o ob.task.id td) _) = _
      rw [andThen_pure _ (fun e2 => assertion_ok hae' e2 ob)]
      rfl
    rw [hcall]
    dsimp only
    rw [h1, h2, show Eng.storeOutputs env R i o ob.task.id td = _ from store_same hb ob.task.id td hMi _]
    generalize Eng.storeOutputs env M i o ob.task.id td = r
    obtain ⟨e2, _ | err⟩ := r
    · exact ⟨rfl, .inr rfl⟩
    · exact ⟨rfl, .inr rfl⟩

/-- **C115** The evaluation of a mocked plain task that is not retried gives the same result and leaves the same state, except that the
call of the activity is on record, as without the mock if the activity returns the mocked outputs. Missing: as for `C115_attempt_partial`. -/
theorem C115_evaluation_partial {e e' : Eng} {t : TaskRef} {r : Eng.EvalOut} (hev : Evaluates env e i o t e' r) {I : Inst} (hI : e.insts[i]? = some I)
    {ob : Obj} (ho : I.objs[o]? = some ob) (hnew : ob.outputs = none ∧ ob.status ≠ .waiting) {td : TaskDef} (htd : I.defn.task? t = some td)
    (hact : ∀ u, td.act ≠ .subflow u) (hkind : td.kind = .basic) (hretry : td.retry = false) {c : TaskIcp}
    (h : Replaces env g i o I.defn.name t c) :
    ∃ f, Evaluates { env with icp := g } e i o t f r ∧ SameButCall i o t e' f := by
  obtain ⟨⟨w, hn, hi, hw, hout⟩, ht⟩ := hev
  have hobt : ob.task = t := by
    rw [Eng.obj?_eq hI, ho] at ht
    exact Option.some.inj ht
  subst hobt
  have hI' : (afterPop env e w).insts[i]? = some I := hI
  have h1 := C115_attempt_partial hI' ho hnew.1 htd hact h
  have key : ∀ (x : Eng), x = (Eng.evalOnce env (afterPop env e w) i o).1 → x.hasRetry i o = false := by
    rintro x rfl
    have hs : Eng.Stands i o ob.task I.defn (afterPop env e w) := ⟨I, ob, hI', ho, rfl, rfl⟩
    obtain ⟨J, y, hJ, hy, hyt, hd⟩ := hs.evals (Eng.Evals.evalOnce (env := env) (afterPop env e w))
    unfold Eng.hasRetry Eng.taskDef?
    rw [Eng.obj?_eq hJ, hy, hJ]
    dsimp only
    rw [hd, hyt, htd]
    exact hretry
  have key' : ∀ (x y : Eng), SameButCall i o ob.task x y → y.hasRetry i o = x.hasRetry i o := by
    rintro x y (rfl | rfl)
    · rfl
    unfold Eng.hasRetry Eng.obj? Eng.taskDef? oneCall
    cases hx : x.insts[i]? with
    | none =>
      have : (x.modI i (fun J => { J with trace := .evalAct o ob.task :: J.trace })).insts[i]? = none := by
        rw [List.getElem?_eq_none_iff] at hx ⊢
        rw [Eng.modI_length]; exact hx
      rw [this]
    | some J => rw [Eng.modI_self hx]
  have hout' : outcome { env with icp := g } (afterPop env e w) i o = some (Eng.evalBasic { env with icp := g } (afterPop env e w) i o) ∧
      outcome env (afterPop env e w) i o = some (Eng.evalBasic env (afterPop env e w) i o) := by
    have htd' : (afterPop env e w).taskDef? i ob.task = some td := by unfold Eng.taskDef?; rw [hI']; exact htd
    unfold outcome at hout ⊢
    rw [Eng.obj?_eq hI', ho] at hout ⊢
    dsimp only at hout ⊢
    rw [htd'] at hout ⊢
    dsimp only at hout ⊢
    rw [if_neg hnew.2] at hout ⊢
    split at hout
    · cases hout
    · rename_i hst
      rw [if_neg hst, if_neg hnew.2, if_neg hst]
      unfold Eng.evalKind
      rw [hkind]
      exact ⟨rfl, rfl⟩
  rw [hout'.2] at hout
  have hb : (Eng.evalBasic { env with icp := g } (afterPop env e w) i o).2 = (Eng.evalBasic env (afterPop env e w) i o).2 ∧
      SameButCall i o ob.task (Eng.evalBasic env (afterPop env e w) i o).1 (Eng.evalBasic { env with icp := g } (afterPop env e w) i o).1 := by
    unfold Eng.evalBasic Eng.evalActivity
    have k1 := key _ rfl
    have k2 := key' _ _ h1.2
    generalize Eng.evalOnce env (afterPop env e w) i o = a at h1 k1 k2
    generalize Eng.evalOnce { env with icp := g } (afterPop env e w) i o = b at h1 k2
    obtain ⟨a1, a2⟩ := a
    obtain ⟨b1, b2⟩ := b
    obtain ⟨h3, h4⟩ := h1
    dsimp only at h3 h4 k1 k2
    subst h3
    rw [k1] at k2
    cases b2 with
    | ok d => cases d <;> exact ⟨rfl, h4⟩
    | error err =>
      dsimp only
      rw [k1, k2, Bool.and_false]
      exact ⟨rfl, h4⟩
  have hr := Option.some.inj hout
  rw [hr] at hb
  refine ⟨(Eng.evalBasic { env with icp := g } (afterPop env e w) i o).1, ⟨⟨w, hn, hi, hw, ?_⟩, ht⟩, hb.2⟩
  show outcome { env with icp := g } (afterPop env e w) i o = _
  rw [hout'.1, ← show _ = r from hb.1]

/-! ### Case and witness -/

def mockedFlow : Def := { name := "f", main := ⟨[tk "A"], []⟩ }
/-- The activity returns `x = 1`; the validation of the outputs fails if `x` is `bad`. -/
def mockedEnv (bad : Val → Bool) (v : Val) (m : List (String × TaskIcp)) : Env :=
  { mockEnv m with
    act := fun _ _ _ => { res := .done, outputs := some (some [("x", v)]) }
    outSchema := fun e i o =>
      match (e.obj? i o).bind (·.outputs) with
      | none => none
      | some out => match AMap.get? out "x" with
        | none => none
        | some w => if bad w then some (.plain "invalid") else none }
def mockOne (v : Val) : TaskIcp := { skipExecution := true, type := .mockActivity, outputs := [("x", v)] }

-- the hypotheses of `C115_evaluation_partial` and `C115_attempt_partial` hold for the only task of a flow
example : Replaces (mockedEnv (fun _ => false) (.str "1") [("f-A", mockOne (.str "1"))]) (fun _ => none) 0 0 "f" ⟨false, "A"⟩ (mockOne (.str "1")) ∧
    (∃ e' r, Evaluates (mockedEnv (fun _ => false) (.str "1") [("f-A", mockOne (.str "1"))])
      (Eng.init (mockedEnv (fun _ => false) (.str "1") [("f-A", mockOne (.str "1"))]) "1" "u" mockedFlow []) 0 0 ⟨false, "A"⟩ e' r) := by
  refine ⟨?_, ?_⟩
  · refine ⟨rfl, rfl, rfl, (fun h => nomatch h), by decide, fun p _ => rfl, ?_, rfl, fun _ _ => rfl, ?_, ?_, ?_, fun _ _ => rfl⟩
    · intro k hk
      show none = AMap.get? [("f-A", mockOne (.str "1"))] k
      have : "f-A" ≠ k := fun h => hk h.symm
      simp [AMap.get?, this]
    · intro c' h
      change AMap.get? [("f-A", mockOne (.str "1"))] "A" = some c' at h
      cases h
    · intro k c' h
      change AMap.get? [("f-A", mockOne (.str "1"))] k = some c' at h
      simp only [AMap.get?] at h
      split at h
      · cases h; rfl
      · cases h
    · intro f _
      dsimp only [mockedEnv]
      split
      · rfl
      · split
        · rfl
        · rfl
  · exact ⟨_, _, ⟨_, rfl, rfl, rfl, rfl⟩, rfl⟩

/-- **C115** disagreement: outputs of an activity are validated, mocked outputs are not; with outputs that violate the schema the flow fails
but completes if they are mocked. -/
theorem C115_negation : ∃ (bad : Val → Bool) (v : Val),
    flowStatus (Eng.run (mockedEnv bad v []) (Eng.init (mockedEnv bad v []) "1" "u" mockedFlow []) 20) 0 = some .failed ∧
    flowStatus (Eng.run (mockedEnv bad v [("f-A", mockOne v)]) (Eng.init (mockedEnv bad v [("f-A", mockOne v)]) "1" "u" mockedFlow []) 20) 0 =
      some .completed :=
  ⟨fun _ => true, .str "1", by decide +kernel, by decide +kernel⟩

end Flow
