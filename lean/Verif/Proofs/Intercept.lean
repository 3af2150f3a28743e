import Verif.Proofs.Accumulate

/-
Executions with different interceptors: a step that evaluates a task depends only on the interceptors of that task.
-/

namespace Flow
open Spec

/-- The same environment with other interceptors. -/
def Env.with (env : Env) (g : String → Option TaskIcp) : Env := { env with icp := g }

/-- Both have the same interceptors for the task `t` of a flow of this name. -/
def SameFor (env : Env) (g : String → Option TaskIcp) (name : String) (t : TaskId) : Prop :=
  g t = env.icp t ∧ g (name ++ "-" ++ t) = env.icp (name ++ "-" ++ t)

namespace Eng

variable {env : Env} {g : String → Option TaskIcp} {i o : Nat} {t : TaskRef} {d : Def}

theorem enterStart_with (es : List TaskEntry) : ∀ (e : Eng) (i : Nat), enterStart (env.with g) e i es = enterStart env e i es := by
  induction es with
  | nil => intro e i; rfl
  | cons x xs ih =>
    intro e i
    unfold enterStart
    cases e.insts[i]? with
    | none => rfl
    | some I =>
      dsimp only
      split
      · rw [ih]; rfl
      · rw [ih]

theorem startInstance_with (e : Eng) (i : Nat) (ins : AMap String Val) : startInstance (env.with g) e i ins = startInstance env e i ins := by
  unfold startInstance
  cases e.insts[i]? with
  | none => rfl
  | some I => exact enterStart_with _ _ _

theorem startSubFlow_with (e : Eng) (uri : String) (ins : AMap String Val) : startSubFlow (env.with g) e i o uri ins = startSubFlow env e i o uri ins := by
  unfold startSubFlow
  rw [show (env.with g).defs = env.defs from rfl]
  generalize env.defs uri = x
  rcases x with err | (_ | d)
  · rfl
  · rfl
  · dsimp only
    rw [startInstance_with]

theorem callActivity_with (e : Eng) (ob : Obj) (td : TaskDef) : callActivity (env.with g) e i o ob td = callActivity env e i o ob td := by
  unfold callActivity
  dsimp only
  split
  · rw [startSubFlow_with]
  · rfl

section
variable (hk : SameFor env g d.name t.id)
include hk

theorem inputInterceptor_with (e : Eng) {ob : Obj} (ht : ob.task = t) : inputInterceptor (env.with g) e i o ob = inputInterceptor env e i o ob := by
  have : icpIn (env.with g) ob = icpIn env ob := by
    show g ob.task.id = env.icp ob.task.id
    rw [ht]; exact hk.1
  unfold inputInterceptor
  rw [this]; rfl

theorem icpOut_with {e : Eng} (hs : Stands i o t d e) {ob : Obj} (ht : ob.task = t) : icpOut (env.with g) e i ob = icpOut env e i ob := by
  obtain ⟨I, _, hI, _, _, hd⟩ := hs
  unfold icpOut
  rw [hI]
  show g (I.defn.name ++ "-" ++ ob.task.id) = env.icp (I.defn.name ++ "-" ++ ob.task.id)
  rw [ht, hd]; exact hk.2

theorem outputInterceptor_with {e : Eng} (hs : Stands i o t d e) {ob : Obj} (ht : ob.task = t) (td : TaskDef) :
    outputInterceptor (env.with g) e i o ob td = outputInterceptor env e i o ob td := by
  unfold outputInterceptor
  rw [icpOut_with hk hs ht]; rfl

theorem assertion_with {e : Eng} (hs : Stands i o t d e) {ob : Obj} (ht : ob.task = t) : assertion (env.with g) e i ob = assertion env e i ob := by
  unfold assertion
  rw [icpOut_with hk hs ht]

theorem mocked_with {e : Eng} (hs : Stands i o t d e) {ob : Obj} (ht : ob.task = t) : mocked (env.with g) e i ob = mocked env e i ob := by
  unfold mocked
  rw [icpOut_with hk hs ht]

theorem afterDone_with {e : Eng} (hs : Stands i o t d e) {ob : Obj} (ht : ob.task = t) (td : TaskDef) :
    afterDone (env.with g) e i o ob td = afterDone env e i o ob td := by
  unfold afterDone
  rw [show (env.with g).outSchema = env.outSchema from rfl]
  generalize env.outSchema e i o = y
  cases y with
  | some err => rfl
  | none =>
    dsimp only
    rw [outputInterceptor_with hk hs ht]
    have h1 := hs.evals (Evals.outputInterceptor (env := env) (s := none) e ob td)
    generalize outputInterceptor env e i o ob td = r at h1
    obtain ⟨e1, x⟩ := r
    cases x with
    | some err => rfl
    | none =>
      have h2 := Stands.evals h1 (Evals.storeOutputs (env := env) (s := none) e1 ob.task.id td)
      show doneOrErr (andThen (storeOutputs env e1 i o ob.task.id td) _) = doneOrErr (andThen (storeOutputs env e1 i o ob.task.id td) _)
      generalize storeOutputs env e1 i o ob.task.id td = r at h2
      obtain ⟨e2, x⟩ := r
      cases x with
      | some err => rfl
      | none =>
        show doneOrErr (assertion _ e2 i ob) = doneOrErr (assertion _ e2 i ob)
        rw [assertion_with hk h2 ht]

theorem evalWith_with {p : Eng × Bool} (hs : Stands i o t d p.1) {ob : Obj} (ht : ob.task = t) (td : TaskDef) :
    evalWith (env.with g) p i o ob td = evalWith env p i o ob td := by
  unfold evalWith
  split
  · exact afterDone_with hk hs ht td
  · rw [show (env.with g).inSchema = env.inSchema from rfl]
    generalize env.inSchema p.1 i o = y
    cases y with
    | some err => rfl
    | none =>
      dsimp only
      rw [mocked_with hk hs ht]
      split
      · exact afterDone_with hk hs ht td
      · have hob : (p.1.obj? i o).map (·.task) = some ob.task := by
          obtain ⟨I, ob', hI, ho, ht', _⟩ := hs
          rw [obj?_eq hI, ho, ht, ← ht']; rfl
        have h1 := hs.evals (Evals.callActivity (env := env) p.1 ob td hob)
        rw [callActivity_with]
        generalize callActivity env p.1 i o ob td = r at h1
        obtain ⟨e3, x, b⟩ := r
        cases x with
        | error err => rfl
        | ok v =>
          cases v with
          | true => exact afterDone_with hk h1 ht td
          | false => rfl

theorem evalOnce_with {e : Eng} (hs : Stands i o t d e) : evalOnce (env.with g) e i o = evalOnce env e i o := by
  obtain ⟨ob, ho, ht, _⟩ := hs.taskDef
  unfold evalOnce
  rw [ho]
  dsimp only
  split
  · rfl
  · rename_i td _
    rw [show applyInputMapper (env.with g) e i o td.name = applyInputMapper env e i o td.name from rfl]
    have h1 := hs.evals (Evals.applyInputMapper (env := env) (s := none) e td.name)
    generalize applyInputMapper env e i o td.name = r at h1
    obtain ⟨e1, x⟩ := r
    cases x with
    | some err => rfl
    | none =>
      dsimp only
      rw [inputInterceptor_with hk e1 ht]
      exact evalWith_with hk (Stands.evals h1 (Evals.inputInterceptor (env := env) (s := none) e1 ob)) ht td

theorem retryFrom_with (n : Nat) : ∀ {e : Eng}, Stands i o t d e → retryFrom (env.with g) n e i o = retryFrom env n e i o := by
  induction n with
  | zero => intro e hs; exact evalOnce_with hk (hs.evals (env := env) (s := none) (.setRetry e 0))
  | succ n ih =>
    intro e hs
    have h1 := hs.evals (env := env) (s := none) (.setRetry e (n + 1))
    have h2 := h1.evals (Evals.evalOnce (env := env) (e.setRetry i o (n + 1)))
    unfold retryFrom
    rw [evalOnce_with hk h1]
    generalize evalOnce env (e.setRetry i o (n + 1)) i o = r at h2
    obtain ⟨e1, x⟩ := r
    cases x with
    | ok v => rfl
    | error err =>
      dsimp only
      rw [ih h2]

theorem evalActivity_with {e : Eng} (hs : Stands i o t d e) : evalActivity (env.with g) e i o = evalActivity env e i o := by
  have h1 := hs.evals (Evals.evalOnce (env := env) e)
  unfold evalActivity
  rw [evalOnce_with hk hs]
  generalize evalOnce env e i o = r at h1
  obtain ⟨e1, x⟩ := r
  cases x with
  | ok v => rfl
  | error err =>
    dsimp only
    split
    · rw [show getRetry (env.with g) e1 i o = getRetry env e1 i o from rfl]
      have h2 := Stands.evals h1 (Evals.getRetry (env := env) (s := none) e1)
      generalize getRetry env e1 i o = r at h2
      obtain ⟨e2, x⟩ := r
      cases x with
      | error rerr => rfl
      | ok c =>
        dsimp only
        rw [retryFrom_with hk _ h2]
    · rfl

theorem postStore_with {e : Eng} (hs : Stands i o t d e) {ob : Obj} (ht : ob.task = t) (td : TaskDef) :
    postStore (env.with g) e i o ob td = postStore env e i o ob td := by
  have key : andThen (outputInterceptor (env.with g) e i o ob td) (fun e1 =>
      andThen (if td.accumulates then e1.accumulate i o ob.task.id else outputMapper (env.with g) e1 i o td.name)
        (fun e2 => assertion (env.with g) e2 i ob)) =
      andThen (outputInterceptor env e i o ob td) (fun e1 =>
      andThen (if td.accumulates then e1.accumulate i o ob.task.id else outputMapper env e1 i o td.name)
        (fun e2 => assertion env e2 i ob)) := by
    rw [outputInterceptor_with hk hs ht]
    have h1 := hs.evals (Evals.outputInterceptor (env := env) (s := none) e ob td)
    generalize outputInterceptor env e i o ob td = r at h1
    obtain ⟨e1, x⟩ := r
    cases x with
    | some err => rfl
    | none =>
      show andThen (if td.accumulates then e1.accumulate i o ob.task.id else outputMapper env e1 i o td.name) _ =
        andThen (if td.accumulates then e1.accumulate i o ob.task.id else outputMapper env e1 i o td.name) _
      have h2 : Stands i o t d (if td.accumulates then e1.accumulate i o ob.task.id else outputMapper env e1 i o td.name).1 := by
        split
        · exact Stands.evals h1 (Evals.accumulate (env := env) (s := none) e1 ob.task.id)
        · exact Stands.evals h1 (Evals.outputMapper (env := env) (s := none) e1 td.name)
      generalize (if td.accumulates then e1.accumulate i o ob.task.id else outputMapper env e1 i o td.name) = r at h2
      obtain ⟨e2, x⟩ := r
      cases x with
      | some err => rfl
      | none =>
        show assertion _ e2 i ob = assertion _ e2 i ob
        exact assertion_with hk h2 ht
  unfold postStore
  rw [key]

theorem postOnce_with {e : Eng} (hs : Stands i o t d e) : postOnce (env.with g) e i o = postOnce env e i o := by
  obtain ⟨ob, ho, ht, _⟩ := hs.taskDef
  unfold postOnce
  rw [ho]
  dsimp only
  split
  · rfl
  · rename_i td _
    have h0 : Stands i o t d (e.modI i (fun I => { I with trace := .postAct o ob.task :: I.trace })) := by
      obtain ⟨I, ob', hI, ho', ht', hd⟩ := hs
      exact ⟨{ I with trace := .postAct o ob.task :: I.trace }, ob', by rw [modI_self hI], ho', ht', hd⟩
    have h1 := Stands.evals h0 (Evals.callPost (env := env) (s := none) _ td)
    rw [show callPost (env.with g) (e.modI i (fun I => { I with trace := .postAct o ob.task :: I.trace })) i o td =
      callPost env (e.modI i (fun I => { I with trace := .postAct o ob.task :: I.trace })) i o td from rfl]
    generalize callPost env (e.modI i (fun I => { I with trace := .postAct o ob.task :: I.trace })) i o td = r at h1
    obtain ⟨e1, x⟩ := r
    cases x with
    | error err => rfl
    | ok done =>
      dsimp only
      rw [postStore_with hk h1 ht]

theorem evalKind_with {e : Eng} (hs : Stands i o t d e) (td : TaskDef) : evalKind (env.with g) e i o td = evalKind env e i o td := by
  unfold evalKind
  split
  · unfold evalBasic
    rw [evalActivity_with hk hs]
  · unfold evalIter
    rw [show getIter (env.with g) e i o td = getIter env e i o td from rfl]
    generalize getIter env e i o td = y
    rcases y with err | (_ | it)
    · rfl
    · rfl
    · dsimp only
      split
      · rfl
      · split
        · rfl
        · rename_i v _
          rw [evalActivity_with hk (hs.modO (fun x => { x with iter := some it.next.1, iteration := some (it.next.1.key, v, it.next.1.current) })
            (fun _ => ⟨rfl, rfl, rfl⟩))]
  · unfold evalDoWhile
    rw [evalActivity_with hk (hs.evals (env := env) (s := none) (.dwInit e))]
    rfl

theorem postKind_with {e : Eng} (hs : Stands i o t d e) (td : TaskDef) : postKind (env.with g) e i o td = postKind env e i o td := by
  unfold postKind
  split
  · have h1 := hs.evals (Evals.postOnce (env := env) (s := none) e)
    unfold postBasic
    rw [postOnce_with hk hs]
    generalize postOnce env e i o = r at h1
    obtain ⟨e1, x⟩ := r
    cases x with
    | ok v => rfl
    | error err =>
      dsimp only
      split
      · rw [show getRetry (env.with g) e1 i o = getRetry env e1 i o from rfl]
        have h2 := Stands.evals h1 (Evals.getRetry (env := env) (s := none) e1)
        generalize getRetry env e1 i o = r at h2
        obtain ⟨e2, x⟩ := r
        cases x with
        | error rerr => rfl
        | ok c =>
          dsimp only
          rw [retryFrom_with hk _ h2]
      · rfl
  · unfold postIter
    rw [postOnce_with hk hs]
  · unfold postDoWhile
    rw [postOnce_with hk (hs.evals (env := env) (s := none) (.dwInit e))]
    rfl

end

/-- Both have the same interceptors for the task instance. -/
def SameAt (env : Env) (g : String → Option TaskIcp) (e : Eng) (i o : Nat) : Prop :=
  ∀ (I : Inst) (ob : Obj) (td : TaskDef), e.insts[i]? = some I → I.objs[o]? = some ob → I.defn.task? ob.task = some td →
    SameFor env g I.defn.name ob.task.id

/-- Both have the same interceptors for all pending tasks of the state. -/
def SameAll (env : Env) (g : String → Option TaskIcp) (e : Eng) : Prop := ∀ w ∈ e.queue, SameAt env g e w.inst w.obj

theorem exec_with {e : Eng} {i o : Nat} (h : SameAt env g e i o) : exec (env.with g) e i o = exec env e i o := by
  unfold exec
  cases ho : e.obj? i o with
  | none => rfl
  | some ob =>
    obtain ⟨I, hI, hob⟩ := obj?_some ho
    have hs : Stands i o ob.task I.defn e := ⟨I, ob, hI, hob, rfl, rfl⟩
    have htd : e.taskDef? i ob.task = I.defn.task? ob.task := by unfold taskDef?; rw [hI]
    dsimp only
    rw [htd]
    cases hd : I.defn.task? ob.task with
    | none => rfl
    | some td =>
      have hk := h I ob td hI hob hd
      dsimp only
      split
      · rw [postKind_with hk hs]
        rfl
      · rfl
      · rfl
      · rw [evalKind_with hk hs]
        rfl

theorem step_with {e : Eng} (h : SameAll env g e) : e.step (env.with g) = e.step env := by
  unfold step
  split
  · unfold doStep
    split
    · rfl
    · dsimp only
      split
      · rw [show (env.with g).pick = env.pick from rfl]
        split
        · rfl
        · rename_i w hw
          refine exec_with ?_
          exact fun I ob td hI ho => h w (List.mem_of_getElem? hw) I ob td hI ho
      · rfl
  · rfl
  · rfl
  · rfl

theorem run_with {e : Eng} (n : Nat) (h : ∀ m < n, SameAll env g (run env e m)) : run (env.with g) e n = run env e n := by
  induction n with
  | zero => rfl
  | succ n ih =>
    show step (env.with g) (run (env.with g) e n) = step env (run env e n)
    rw [ih (fun m hm => h m (by omega)), step_with (h n (by omega))]

end Eng

end Flow
