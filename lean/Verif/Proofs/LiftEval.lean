import Verif.Proofs.LiftInst

/-
The error handler as a flow of its own: evaluating tasks.
-/

namespace Flow

open Spec

namespace Lift

/-- The state of the flow that handles the error and that of the error handler as a flow of its own. -/
structure LE (P : Start) (e f : Eng) : Prop where
  eq : e = engE P f
  one : ∃ J, f.insts = [J] ∧ J.defn = P.defn ∧ J.handling = false
  cur : f.cur = 0
  items : ∀ w ∈ f.queue, w.inst = 0

/-- Corresponding states and equal results. -/
def LR (P : Start) {α : Type} (x y : Eng × α) : Prop := LE P x.1 y.1 ∧ x.2 = y.2

namespace LE

variable {P : Start} {e f : Eng} {env : Env}

theorem insts (h : LE P e f) : ∃ I J, e.insts = [I] ∧ f.insts = [J] ∧ LI P I J := by
  obtain ⟨J, h1, h2, h3⟩ := h.one
  exact ⟨instE P J, J, by rw [h.eq]; show f.insts.map _ = _; rw [h1]; rfl, h1, rfl, h2, h3⟩

theorem inst0 (h : LE P e f) : ∃ I J, e.insts[0]? = some I ∧ f.insts[0]? = some J ∧ LI P I J := by
  obtain ⟨I, J, h1, h2, h3⟩ := h.insts
  exact ⟨I, J, by rw [h1]; rfl, by rw [h2]; rfl, h3⟩

theorem modI (h : LE P e f) {g g' : Inst → Inst} (hg : ∀ I J, LI P I J → LI P (g I) (g' J)) : LE P (e.modI 0 g) (f.modI 0 g') := by
  obtain ⟨I, J, h1, h2, h3⟩ := h.insts
  have h4 := hg I J h3
  refine ⟨?_, ⟨g' J, Eng.modI_one h2 g', h4.defn, h4.handling⟩, h.cur, h.items⟩
  have h5 := Eng.modI_one h1 g
  have h6 := Eng.modI_one h2 g'
  have h7 : e.modI 0 g = { e with insts := (e.modI 0 g).insts } := rfl
  rw [h7, h5, h.eq]
  unfold engE
  rw [h6]
  show _ = ({ P.e0 with insts := [instE P (g' J)], queue := _, wiCounter := _, stepID := _, cur := _, stack := _, replies := _, qlog := _ } : Eng)
  rw [← h4.eq]
  rfl

theorem set (h : LE P e f) {I J : Inst} (k : LI P I J) : LE P (e.modI 0 (fun _ => I)) (f.modI 0 (fun _ => J)) := h.modI fun _ _ _ => k

theorem objEq (h : LE P e f) (b : Nat) : e.obj? 0 (P.sh b) = (f.obj? 0 b).map objE := by
  obtain ⟨I, J, h1, h2, h3⟩ := h.inst0
  unfold Eng.obj?
  rw [h1, h2]
  exact h3.obj b

theorem objBind {α : Type} (h : LE P e f) (b : Nat) (g : Obj → Option α) (hg : ∀ x, g (objE x) = g x) :
    (e.obj? 0 (P.sh b)).bind g = (f.obj? 0 b).bind g := by
  rw [h.objEq]
  cases f.obj? 0 b with
  | none => rfl
  | some ob => exact hg ob

theorem taskDef (H : Ok P) (h : LE P e f) (t : TaskRef) : e.taskDef? 0 (refE t) = f.taskDef? 0 t := by
  obtain ⟨I, J, h1, h2, h3⟩ := h.inst0
  unfold Eng.taskDef?
  rw [h1, h2]
  exact h3.task? H t

theorem noSub (H : Ok P) (h : LE P e f) {t : TaskRef} {td : TaskDef} (ht : f.taskDef? 0 t = some td) (uri : String) : td.act ≠ .subflow uri := by
  obtain ⟨I, J, _, h2, h3⟩ := h.inst0
  unfold Eng.taskDef? at ht
  rw [h2] at ht
  have ht : J.defn.task? t = some td := ht
  rw [h3.defn] at ht
  unfold Def.task? at ht
  rw [LI.graph] at ht
  exact H.leaf td (List.mem_of_find?_eq_some ht) uri

theorem modO (h : LE P e f) (b : Nat) (g : Obj → Obj) (hg : ∀ x, objE (g x) = g (objE x)) :
    LE P (e.modI 0 (fun I => I.modO (P.sh b) g)) (f.modI 0 (fun J => J.modO b g)) := h.modI fun _ _ k => k.modO b g hg

theorem schedule (h : LE P e f) (b : Nat) : LE P (e.schedule 0 (P.sh b)) (f.schedule 0 b) := by
  refine ⟨?_, h.one, h.cur, fun w hw => ?_⟩
  rotate_left
  · rcases List.mem_append.1 hw with hw | hw
    · exact h.items w hw
    · cases List.mem_singleton.1 hw; rfl
  rw [h.eq]
  unfold Eng.schedule engE
  dsimp only
  rw [List.map_append]
  rfl

theorem icpOut (h : LE P e f) (ob : Obj) : Eng.icpOut env e 0 (objE ob) = Eng.icpOut (envE P env) f 0 ob := by
  obtain ⟨I, J, h1, h2, h3⟩ := h.inst0
  unfold Eng.icpOut
  rw [h1, h2]
  dsimp only
  rw [h3.defn, h3.eq]
  rfl

theorem inputInterceptor (h : LE P e f) (b : Nat) (ob : Obj) :
    LR P (Eng.inputInterceptor env e 0 (P.sh b) (objE ob)) (Eng.inputInterceptor (envE P env) f 0 b ob) := by
  unfold Eng.inputInterceptor
  have hi : Eng.icpIn (envE P env) ob = Eng.icpIn env (objE ob) := rfl
  rw [hi]
  cases Eng.icpIn env (objE ob) with
  | none => exact ⟨h, rfl⟩
  | some tc => exact ⟨h.modO b (fun x => { x with inputs := tc.inputs.foldl (fun m p => m.set p.1 (env.coerceIn (objE ob).task p.1 p.2)) x.inputs }) fun _ => rfl, rfl⟩

theorem applyActOut (h : LE P e f) (b : Nat) (a : ActOut) : LE P (e.applyActOut 0 (P.sh b) a) (f.applyActOut 0 b (actE a)) := by
  unfold Eng.applyActOut
  dsimp only
  have h1 : LE P (e.modI 0 (fun I =>
    let I1 := { I with attrs := I.attrs.update a.sets }
    let I2 := match a.outputs with
      | none => I1
      | some m => I1.modO (P.sh b) (fun x => { x with outputs := m })
    match a.ret with
    | none => I2
    | some (d, err) => { I2 with force := true, returnData := d, returnError := err }))
    (f.modI 0 (fun I =>
    let I1 := { I with attrs := I.attrs.update (encA a.sets) }
    let I2 := match a.outputs with
      | none => I1
      | some m => I1.modO b (fun x => { x with outputs := m })
    match a.ret with
    | none => I2
    | some (d, err) => { I2 with force := true, returnData := d, returnError := err })) := by
    refine h.modI fun I J k => ?_
    dsimp only
    have k1 := k.setAttrs a.sets
    have hret : ∀ {I J : Inst}, LI P I J → LI P (match a.ret with
        | none => I
        | some (d, err) => { I with force := true, returnData := d, returnError := err }) (match a.ret with
        | none => J
        | some (d, err) => { J with force := true, returnData := d, returnError := err }) := by
      intro I J k
      cases a.ret with
      | none => exact k
      | some p => exact ⟨by rw [k.eq]; rfl, k.defn, k.handling⟩
    cases a.outputs with
    | none => exact hret k1
    | some m => exact hret (k1.modO b (fun x => { x with outputs := m }) fun _ => rfl)
  have hr : (actE a).reply = a.reply := rfl
  rw [hr]
  cases a.reply with
  | none => exact h1
  | some p =>
    dsimp only
    rw [if_pos rfl, if_pos rfl]
    have h2 := h1.modI (g := fun I => { I with returnData := some p.1 }) (g' := fun I => { I with returnData := some p.1 })
      fun I J k => ⟨by rw [k.eq]; unfold instE; cases J.force <;> rfl, k.defn, k.handling⟩
    refine ⟨?_, h2.one, h2.cur, h2.items⟩
    have h3 := h2.eq
    clear h2
    have h4 := h1.eq
    generalize e.modI 0 _ = x at h3 h4 ⊢
    have h5 : (actE a).sets = encA a.sets := rfl
    have h6 : (actE a).outputs = a.outputs := rfl
    have h7 : (actE a).ret = a.ret := rfl
    rw [h5, h6, h7]
    generalize f.modI 0 _ = y at h3 h4 ⊢
    have h8 : x.replies = y.replies ++ P.e0.replies := by rw [h4]; rfl
    rw [h3, h8]
    rfl

theorem callActivity (h : LE P e f) (b : Nat) (ob : Obj) (td : TaskDef) (hs : ∀ uri, td.act ≠ .subflow uri) :
    LR P (Eng.callActivity env e 0 (P.sh b) (objE ob) td) (Eng.callActivity (envE P env) f 0 b ob td) := by
  unfold Eng.callActivity
  dsimp only
  have h1 : LE P (e.modI 0 (fun I => { I with trace := .evalAct (P.sh b) (objE ob).task :: I.trace })) (f.modI 0 (fun I => { I with trace := .evalAct b ob.task :: I.trace })) :=
    h.modI fun I J k => k.ev _ _ rfl
  generalize e.modI 0 (fun I => { I with trace := .evalAct (P.sh b) (objE ob).task :: I.trace }) = x at h1 ⊢
  generalize f.modI 0 (fun I => { I with trace := .evalAct b ob.task :: I.trace }) = y at h1 ⊢
  have ha : (envE P env).act y 0 b = actE (env.act x 0 (P.sh b)) := by rw [h1.eq]; rfl
  rw [ha]
  split
  · rename_i uri hu; exact absurd hu (hs uri)
  · have h2 := h1.applyActOut b (env.act x 0 (P.sh b))
    have hr : (actE (env.act x 0 (P.sh b))).res = (env.act x 0 (P.sh b)).res := rfl
    rw [hr]
    cases (env.act x 0 (P.sh b)).res <;> exact ⟨h2, rfl⟩

theorem accumulate (h : LE P e f) (b : Nat) (t : TaskId) : LR P (e.accumulate 0 (P.sh b) t) (f.accumulate 0 b t) := by
  obtain ⟨I, J, h1, h2, h3⟩ := h.inst0
  unfold Eng.accumulate
  rw [h1, h2]
  dsimp only
  have ho : (I.objs[P.sh b]?).bind (·.outputs) = (J.objs[b]?).bind (·.outputs) := by
    rw [h3.obj]; cases J.objs[b]? <;> rfl
  have ha : I.attrs.get? ("_A." ++ t) = J.attrs.get? ("_A." ++ t) := by
    rw [h3.eq]
    show AMap.get? (decA J.attrs) _ = _
    rw [decA_get, rho_a]
  have hset : ∀ v, LE P (e.modI 0 (fun J => J.setValue ("_A." ++ t) v)) (f.modI 0 (fun J => J.setValue ("_A." ++ t) v)) := fun v => by
    refine h.modI fun I J k => ?_
    have := k.setValue ("_A." ++ t) v
    rwa [rho_a] at this
  rw [ho, ha]
  split
  · exact ⟨hset _, rfl⟩
  · exact ⟨hset _, rfl⟩
  · exact ⟨h, rfl⟩

theorem outputMapper (h : LE P e f) (b : Nat) (name : String) :
    LR P (Eng.outputMapper env e 0 (P.sh b) name) (Eng.outputMapper (envE P env) f 0 b name) := by
  unfold Eng.outputMapper
  have hm : (envE P env).outMap f 0 b = (env.outMap e 0 (P.sh b)).map fun p => (encA p.1, p.2) := by rw [h.eq]; rfl
  rw [hm]
  cases env.outMap e 0 (P.sh b) with
  | none => exact ⟨h, rfl⟩
  | some p => exact ⟨h.modI fun _ _ k => k.setAttrs _, rfl⟩

theorem outputInterceptor (h : LE P e f) (b : Nat) (ob : Obj) (td : TaskDef) :
    LR P (Eng.outputInterceptor env e 0 (P.sh b) (objE ob) td) (Eng.outputInterceptor (envE P env) f 0 b ob td) := by
  unfold Eng.outputInterceptor
  rw [h.icpOut ob]
  cases Eng.icpOut (envE P env) f 0 ob with
  | none => exact ⟨h, rfl⟩
  | some tc =>
    dsimp only
    split
    · exact ⟨h, rfl⟩
    · cases tc.type with
      | other => exact ⟨h, rfl⟩
      | mockException => dsimp only; split <;> exact ⟨h, rfl⟩
      | mockActivity =>
        dsimp only
        have hc : (fun p : String × Val => Except.map (fun v => (p.1, v)) ((envE P env).coerceOut ob.task p.1 p.2)) =
          fun p : String × Val => Except.map (fun v => (p.1, v)) (env.coerceOut (objE ob).task p.1 p.2) := rfl
        rw [hc]
        split
        · exact ⟨h, rfl⟩
        · exact ⟨h.modO b _ fun _ => rfl, rfl⟩

theorem andThen {x y : Eng × Option Err} (h : LR P x y) {k k' : Eng → Eng × Option Err}
    (hk : ∀ e f, LE P e f → LR P (k e) (k' f)) : LR P (Eng.andThen x k) (Eng.andThen y k') := by
  obtain ⟨x1, x2⟩ := x
  obtain ⟨y1, y2⟩ := y
  obtain ⟨h1, h2⟩ := h
  have h2 : x2 = y2 := h2
  subst h2
  cases x2 with
  | none => exact hk _ _ h1
  | some err => exact ⟨h1, rfl⟩

theorem storeOutputs (h : LE P e f) (b : Nat) (t : TaskId) (td : TaskDef) :
    LR P (Eng.storeOutputs env e 0 (P.sh b) t td) (Eng.storeOutputs (envE P env) f 0 b t td) := by
  unfold Eng.storeOutputs
  split
  · refine andThen (h.accumulate b t) fun e' f' h' => ?_
    split
    · exact h'.outputMapper b _
    · exact ⟨h', rfl⟩
  · exact h.outputMapper b _

theorem assertion (h : LE P e f) (ob : Obj) : LR P (Eng.assertion env e 0 (objE ob)) (Eng.assertion (envE P env) f 0 ob) := by
  unfold Eng.assertion
  rw [h.icpOut ob]
  split
  · split
    · exact ⟨h, rfl⟩
    · exact ⟨h, rfl⟩
  · exact ⟨h, rfl⟩

theorem doneOrErr {x y : Eng × Option Err} (h : LR P x y) : LR P (Eng.doneOrErr x) (Eng.doneOrErr y) := by
  obtain ⟨x1, x2⟩ := x
  obtain ⟨y1, y2⟩ := y
  obtain ⟨h1, h2⟩ := h
  have h2 : x2 = y2 := h2
  subst h2
  cases x2 <;> exact ⟨h1, rfl⟩

theorem afterDone (h : LE P e f) (b : Nat) (ob : Obj) (td : TaskDef) :
    LR P (Eng.afterDone env e 0 (P.sh b) (objE ob) td) (Eng.afterDone (envE P env) f 0 b ob td) := by
  unfold Eng.afterDone
  have hm : (envE P env).outSchema f 0 b = env.outSchema e 0 (P.sh b) := by rw [h.eq]; rfl
  rw [hm]
  split
  · exact ⟨h, rfl⟩
  · exact doneOrErr (andThen (h.outputInterceptor b ob td) fun _ _ h1 => andThen (h1.storeOutputs b _ td) fun _ _ h2 => h2.assertion ob)

theorem dec_e : dec "_E" = none := by
  refine dec_none (by decide) fun r hr => ?_
  have h1 : ("_E" : String).toList = ['_', 'E'] := by decide
  rw [h1] at hr
  cases hr

theorem evalErrorData (H : Ok P) (h : LE P e f) (t : TaskId) (err : Err) : LE P (e.evalErrorData 0 t err) (f.evalErrorData 0 t err) := by
  unfold Eng.evalErrorData
  refine h.modI fun I J k => ?_
  dsimp only
  have hh : I.handling = true := by rw [k.eq]; exact H.handling
  rw [hh, k.handling, if_pos rfl, if_neg Bool.false_ne_true]
  exact (k.setOther (errorObj t err) dec_e).setValueE _ _

theorem applyInputMapper (h : LE P e f) (b : Nat) (name : String) :
    LR P (Eng.applyInputMapper env e 0 (P.sh b) name) (Eng.applyInputMapper (envE P env) f 0 b name) := by
  unfold Eng.applyInputMapper
  have hm : (envE P env).inMap f 0 b = env.inMap e 0 (P.sh b) := by rw [h.eq]; rfl
  rw [hm]
  split
  · exact ⟨h, rfl⟩
  · exact ⟨h, rfl⟩
  · exact ⟨h.modO b _ fun _ => rfl, rfl⟩

theorem mocked (h : LE P e f) (ob : Obj) : Eng.mocked env e 0 (objE ob) = Eng.mocked (envE P env) f 0 ob := by
  unfold Eng.mocked; rw [h.icpOut ob]

theorem evalWith (H : Ok P) {x y : Eng × Bool} (h : LR P x y) (b : Nat) (ob : Obj) (td : TaskDef) (hs : ∀ uri, td.act ≠ .subflow uri) :
    LR P (Eng.evalWith env x 0 (P.sh b) (objE ob) td) (Eng.evalWith (envE P env) y 0 b ob td) := by
  obtain ⟨x1, x2⟩ := x
  obtain ⟨y1, y2⟩ := y
  have h1 : LE P x1 y1 := h.1
  have h2 : x2 = y2 := h.2
  subst h2
  clear h
  unfold Eng.evalWith
  dsimp only
  split
  · exact h1.afterDone b ob td
  · have hm : (envE P env).inSchema y1 0 b = env.inSchema x1 0 (P.sh b) := by rw [h1.eq]; rfl
    rw [hm]
    cases env.inSchema x1 0 (P.sh b) with
    | some err => exact ⟨h1, rfl⟩
    | none =>
      dsimp only
      rw [h1.mocked ob]
      split
      · exact h1.afterDone b ob td
      · have hc := h1.callActivity (env := env) b ob td hs
        revert hc
        generalize Eng.callActivity env x1 0 (P.sh b) (objE ob) td = u
        generalize Eng.callActivity (envE P env) y1 0 b ob td = v
        obtain ⟨u1, u2, u3⟩ := u
        obtain ⟨v1, v2, v3⟩ := v
        intro hc
        obtain ⟨hc1, hc2⟩ := hc
        have hc1 : LE P u1 v1 := hc1
        cases hc2
        cases u2 with
        | error err =>
          dsimp only
          cases u3
          · exact ⟨hc1.evalErrorData H _ _, rfl⟩
          · exact ⟨hc1, rfl⟩
        | ok d =>
          cases d
          · exact ⟨hc1, rfl⟩
          · exact hc1.afterDone b ob td

theorem evalOnce (H : Ok P) (h : LE P e f) (b : Nat) : LR P (Eng.evalOnce env e 0 (P.sh b)) (Eng.evalOnce (envE P env) f 0 b) := by
  unfold Eng.evalOnce
  rw [h.objEq]
  cases f.obj? 0 b with
  | none => exact ⟨h, rfl⟩
  | some ob =>
    dsimp only [Option.map_some]
    have ht : e.taskDef? 0 (objE ob).task = f.taskDef? 0 ob.task := h.taskDef H ob.task
    rw [ht]
    cases htd : f.taskDef? 0 ob.task with
    | none => exact ⟨h, rfl⟩
    | some td =>
      dsimp only
      have hm := h.applyInputMapper (env := env) b td.name
      revert hm
      generalize Eng.applyInputMapper env e 0 (P.sh b) td.name = u
      generalize Eng.applyInputMapper (envE P env) f 0 b td.name = v
      obtain ⟨u1, u2⟩ := u
      obtain ⟨v1, v2⟩ := v
      intro hm
      obtain ⟨hm1, hm2⟩ := hm
      have hm1 : LE P u1 v1 := hm1
      have hm2 : u2 = v2 := hm2
      subst hm2
      cases u2 with
      | some err => exact ⟨hm1, rfl⟩
      | none => exact evalWith H (hm1.inputInterceptor b ob) b ob td (h.noSub H htd)

theorem setRetry (h : LE P e f) (b : Nat) (c : Int) : LE P (e.setRetry 0 (P.sh b) c) (f.setRetry 0 b c) := h.modO b _ fun _ => rfl

theorem getRetry (h : LE P e f) (b : Nat) : LR P (Eng.getRetry env e 0 (P.sh b)) (Eng.getRetry (envE P env) f 0 b) := by
  unfold Eng.getRetry
  have hm : (envE P env).retryCount f 0 b = env.retryCount e 0 (P.sh b) := by rw [h.eq]; rfl
  rw [h.objBind b (·.retry) fun _ => rfl, hm]
  split
  · exact ⟨h, rfl⟩
  · split
    · exact ⟨h, rfl⟩
    · exact ⟨h.setRetry b _, rfl⟩

theorem retryFrom (H : Ok P) (b : Nat) : ∀ (n : Nat) {e f : Eng}, LE P e f →
    LR P (Eng.retryFrom env n e 0 (P.sh b)) (Eng.retryFrom (envE P env) n f 0 b) := by
  intro n
  induction n with
  | zero => intro e f h; exact (h.setRetry b 0).evalOnce H b
  | succ n ih =>
    intro e f h
    have h1 := (h.setRetry b (n + 1)).evalOnce (env := env) H b
    unfold Eng.retryFrom
    revert h1
    generalize Eng.evalOnce env (e.setRetry 0 (P.sh b) (n + 1)) 0 (P.sh b) = u
    generalize Eng.evalOnce (envE P env) (f.setRetry 0 b (n + 1)) 0 b = v
    obtain ⟨u1, u2⟩ := u
    obtain ⟨v1, v2⟩ := v
    intro h1
    obtain ⟨h1, h2⟩ := h1
    have h2 : u2 = v2 := h2
    subst h2
    cases u2 with
    | ok d => exact ⟨h1, rfl⟩
    | error err =>
      dsimp only
      split
      · exact ih h1
      · exact ⟨h1, rfl⟩

theorem hasRetry (H : Ok P) (h : LE P e f) (b : Nat) : e.hasRetry 0 (P.sh b) = f.hasRetry 0 b := by
  unfold Eng.hasRetry
  rw [h.objEq]
  cases f.obj? 0 b with
  | none => rfl
  | some ob =>
    dsimp only [Option.map_some]
    have ht : e.taskDef? 0 (objE ob).task = f.taskDef? 0 ob.task := h.taskDef H ob.task
    rw [ht]

theorem evalActivity (H : Ok P) (h : LE P e f) (b : Nat) : LR P (Eng.evalActivity env e 0 (P.sh b)) (Eng.evalActivity (envE P env) f 0 b) := by
  have h1 := h.evalOnce (env := env) H b
  unfold Eng.evalActivity
  revert h1
  generalize Eng.evalOnce env e 0 (P.sh b) = u
  generalize Eng.evalOnce (envE P env) f 0 b = v
  obtain ⟨u1, u2⟩ := u
  obtain ⟨v1, v2⟩ := v
  intro h1
  obtain ⟨h1, h2⟩ := h1
  have h1 : LE P u1 v1 := h1
  have h2 : u2 = v2 := h2
  subst h2
  cases u2 with
  | ok d => exact ⟨h1, rfl⟩
  | error err =>
    dsimp only
    rw [h1.hasRetry H b]
    split
    · have h3 := h1.getRetry (env := env) b
      revert h3
      generalize Eng.getRetry env u1 0 (P.sh b) = u
      generalize Eng.getRetry (envE P env) v1 0 b = v
      obtain ⟨w1, w2⟩ := u
      obtain ⟨z1, z2⟩ := v
      intro h3
      obtain ⟨h3, h4⟩ := h3
      have h3 : LE P w1 z1 := h3
      have h4 : w2 = z2 := h4
      subst h4
      cases w2 with
      | error err => exact ⟨h3, rfl⟩
      | ok c =>
        dsimp only
        split
        · exact retryFrom H b _ h3
        · exact ⟨h3, rfl⟩
    · exact ⟨h1, rfl⟩

theorem callPost (h : LE P e f) (b : Nat) (td : TaskDef) : LR P (Eng.callPost env e 0 (P.sh b) td) (Eng.callPost (envE P env) f 0 b td) := by
  unfold Eng.callPost
  dsimp only
  have ha : (envE P env).post f 0 b = actE (env.post e 0 (P.sh b)) := by rw [h.eq]; rfl
  have hr : (actE (env.post e 0 (P.sh b))).res = (env.post e 0 (P.sh b)).res := rfl
  rw [ha, hr]
  split
  · cases (env.post e 0 (P.sh b)).res <;> exact ⟨h.applyActOut b _, rfl⟩
  · exact ⟨h, rfl⟩

theorem postStore (h : LE P e f) (b : Nat) (ob : Obj) (td : TaskDef) :
    LR P (Eng.postStore env e 0 (P.sh b) (objE ob) td) (Eng.postStore (envE P env) f 0 b ob td) := by
  unfold Eng.postStore
  have h1 : LR P (Eng.andThen (Eng.outputInterceptor env e 0 (P.sh b) (objE ob) td) (fun e1 =>
      Eng.andThen (if td.accumulates then e1.accumulate 0 (P.sh b) (objE ob).task.id else Eng.outputMapper env e1 0 (P.sh b) td.name)
        (fun e2 => Eng.assertion env e2 0 (objE ob)))) (Eng.andThen (Eng.outputInterceptor (envE P env) f 0 b ob td) (fun e1 =>
      Eng.andThen (if td.accumulates then e1.accumulate 0 b ob.task.id else Eng.outputMapper (envE P env) e1 0 b td.name)
        (fun e2 => Eng.assertion (envE P env) e2 0 ob))) := by
    refine andThen (h.outputInterceptor b ob td) fun e1 f1 h1 => andThen ?_ fun _ _ h2 => h2.assertion ob
    split
    · exact h1.accumulate b _
    · exact h1.outputMapper b _
  revert h1
  generalize Eng.andThen (Eng.outputInterceptor env e 0 (P.sh b) (objE ob) td) _ = u
  generalize Eng.andThen (Eng.outputInterceptor (envE P env) f 0 b ob td) _ = v
  obtain ⟨u1, u2⟩ := u
  obtain ⟨v1, v2⟩ := v
  intro h1
  obtain ⟨h1, h2⟩ := h1
  have h2 : u2 = v2 := h2
  subst h2
  cases u2 <;> exact ⟨h1, rfl⟩

theorem postOnce (H : Ok P) (h : LE P e f) (b : Nat) : LR P (Eng.postOnce env e 0 (P.sh b)) (Eng.postOnce (envE P env) f 0 b) := by
  unfold Eng.postOnce
  rw [h.objEq]
  cases f.obj? 0 b with
  | none => exact ⟨h, rfl⟩
  | some ob =>
    dsimp only [Option.map_some]
    have ht : e.taskDef? 0 (objE ob).task = f.taskDef? 0 ob.task := h.taskDef H ob.task
    rw [ht]
    cases f.taskDef? 0 ob.task with
    | none => exact ⟨h, rfl⟩
    | some td =>
      dsimp only
      have h3 : LE P (e.modI 0 (fun I => { I with trace := .postAct (P.sh b) (objE ob).task :: I.trace })) (f.modI 0 (fun I => { I with trace := .postAct b ob.task :: I.trace })) :=
        h.modI fun I J k => k.ev _ _ rfl
      have h4 := h3.callPost (env := env) b td
      revert h4
      generalize Eng.callPost env (e.modI 0 _) 0 (P.sh b) td = u
      generalize Eng.callPost (envE P env) (f.modI 0 _) 0 b td = v
      obtain ⟨u1, u2⟩ := u
      obtain ⟨v1, v2⟩ := v
      intro h4
      obtain ⟨h4, h5⟩ := h4
      have h4 : LE P u1 v1 := h4
      have h5 : u2 = v2 := h5
      subst h5
      cases u2 with
      | error err => exact ⟨h4, rfl⟩
      | ok done =>
        dsimp only
        rw [h4.objBind b (·.returnError) fun _ => rfl]
        cases (v1.obj? 0 b).bind (·.returnError) with
        | some err => exact ⟨h4, rfl⟩
        | none =>
          dsimp only
          split
          · exact h4.postStore b ob td
          · exact ⟨h4, rfl⟩

theorem setStatus (h : LE P e f) (b : Nat) (s : TaskStatus) : LE P (e.setStatus 0 (P.sh b) s) (f.setStatus 0 b s) :=
  h.modI fun _ _ k => k.setTaskStatus b s

theorem evalBasic (H : Ok P) (h : LE P e f) (b : Nat) : LR P (Eng.evalBasic env e 0 (P.sh b)) (Eng.evalBasic (envE P env) f 0 b) := by
  have h1 := h.evalActivity (env := env) H b
  unfold Eng.evalBasic
  revert h1
  generalize Eng.evalActivity env e 0 (P.sh b) = u
  generalize Eng.evalActivity (envE P env) f 0 b = v
  obtain ⟨u1, u2⟩ := u
  obtain ⟨v1, v2⟩ := v
  intro h1
  obtain ⟨h1, h2⟩ := h1
  have h2 : u2 = v2 := h2
  subst h2
  cases u2 with
  | error err => exact ⟨h1, rfl⟩
  | ok d => cases d <;> exact ⟨h1, rfl⟩

theorem postBasic (H : Ok P) (h : LE P e f) (b : Nat) : LR P (Eng.postBasic env e 0 (P.sh b)) (Eng.postBasic (envE P env) f 0 b) := by
  have h1 := h.postOnce (env := env) H b
  unfold Eng.postBasic
  revert h1
  generalize Eng.postOnce env e 0 (P.sh b) = u
  generalize Eng.postOnce (envE P env) f 0 b = v
  obtain ⟨u1, u2⟩ := u
  obtain ⟨v1, v2⟩ := v
  intro h1
  obtain ⟨h1, h2⟩ := h1
  have h1 : LE P u1 v1 := h1
  have h2 : u2 = v2 := h2
  subst h2
  cases u2 with
  | ok d => exact ⟨h1, rfl⟩
  | error err =>
    dsimp only
    rw [h1.hasRetry H b]
    split
    · have h3 := h1.getRetry (env := env) b
      revert h3
      generalize Eng.getRetry env u1 0 (P.sh b) = u
      generalize Eng.getRetry (envE P env) v1 0 b = v
      obtain ⟨w1, w2⟩ := u
      obtain ⟨z1, z2⟩ := v
      intro h3
      obtain ⟨h3, h4⟩ := h3
      have h3 : LE P w1 z1 := h3
      have h4 : w2 = z2 := h4
      subst h4
      cases w2 with
      | error err => exact ⟨h3, rfl⟩
      | ok c =>
        dsimp only
        split
        · have h5 := retryFrom (env := env) H b (c.toNat - 1) h3
          revert h5
          generalize Eng.retryFrom env (c.toNat - 1) w1 0 (P.sh b) = u
          generalize Eng.retryFrom (envE P env) (c.toNat - 1) z1 0 b = v
          obtain ⟨x1, x2⟩ := u
          obtain ⟨y1, y2⟩ := v
          intro h5
          obtain ⟨h5, h6⟩ := h5
          have h6 : x2 = y2 := h6
          subst h6
          cases x2 with
          | error err => exact ⟨h5, rfl⟩
          | ok d => cases d <;> exact ⟨h5, rfl⟩
        · exact ⟨h3, rfl⟩
    · exact ⟨h1, rfl⟩

theorem getIter (h : LE P e f) (b : Nat) (td : TaskDef) : Eng.getIter env e 0 (P.sh b) td = Eng.getIter (envE P env) f 0 b td := by
  unfold Eng.getIter
  have hm : (envE P env).iterOn f 0 b = env.iterOn e 0 (P.sh b) := by rw [h.eq]; rfl
  rw [h.objBind b (·.iter) fun _ => rfl, hm]
  rfl

theorem evalIter (H : Ok P) (h : LE P e f) (b : Nat) (td : TaskDef) :
    LR P (Eng.evalIter env e 0 (P.sh b) td) (Eng.evalIter (envE P env) f 0 b td) := by
  unfold Eng.evalIter
  rw [h.getIter b td]
  split
  · exact ⟨h, rfl⟩
  · exact ⟨h, rfl⟩
  · rename_i it _
    dsimp only
    split
    · exact ⟨h.modO b (fun x => { x with iter := some it.next.1, iteration := some (x.iteration.getD (.null, .null, 0)) }) fun _ => rfl, rfl⟩
    · cases it.next.1.value with
      | none => exact ⟨h, rfl⟩
      | some v =>
        dsimp only
        have h1 := (h.modO b (fun x => { x with iter := some it.next.1, iteration := some (it.next.1.key, v, it.next.1.current) }) fun _ => rfl).evalActivity (env := env) H b
        revert h1
        generalize Eng.evalActivity env (e.modI 0 _) 0 (P.sh b) = u
        generalize Eng.evalActivity (envE P env) (f.modI 0 _) 0 b = w
        obtain ⟨u1, u2⟩ := u
        obtain ⟨w1, w2⟩ := w
        intro h1
        obtain ⟨h1, h2⟩ := h1
        have h1 : LE P u1 w1 := h1
        have h2 : u2 = w2 := h2
        subst h2
        cases u2 with
        | error err => exact ⟨h1.setStatus b _, rfl⟩
        | ok d =>
          cases d
          · exact ⟨h1.setStatus b _, rfl⟩
          · exact ⟨h1, rfl⟩

theorem postIter (H : Ok P) (h : LE P e f) (b : Nat) : LR P (Eng.postIter env e 0 (P.sh b)) (Eng.postIter (envE P env) f 0 b) := by
  have h1 := h.postOnce (env := env) H b
  unfold Eng.postIter
  revert h1
  generalize Eng.postOnce env e 0 (P.sh b) = u
  generalize Eng.postOnce (envE P env) f 0 b = v
  obtain ⟨u1, u2⟩ := u
  obtain ⟨v1, v2⟩ := v
  intro h1
  obtain ⟨h1, h2⟩ := h1
  have h1 : LE P u1 v1 := h1
  have h2 : u2 = v2 := h2
  subst h2
  cases u2 with
  | error err => exact ⟨h1.setStatus b _, rfl⟩
  | ok d =>
    dsimp only
    have h3 : LE P (u1.setStatus 0 (P.sh b) .done) (v1.setStatus 0 b .done) := h1.setStatus b .done
    rw [h3.objBind b (·.iter) fun _ => rfl]
    cases ((v1.setStatus 0 b .done).obj? 0 b).bind (·.iter) <;> exact ⟨h3, rfl⟩

theorem dwCheck (h : LE P e f) (b : Nat) (td : TaskDef) : LR P (Eng.dwCheck env e 0 (P.sh b) td) (Eng.dwCheck (envE P env) f 0 b td) := by
  unfold Eng.dwCheck
  have hm : (envE P env).cond f 0 b = env.cond e 0 (P.sh b) := by rw [h.eq]; rfl
  rw [hm]
  exact ⟨h.modO b (fun x => { x with dwIndex := some ((x.dwIndex.getD 0) + 1) }) fun _ => rfl, rfl⟩

theorem dwInit (h : LE P e f) (b : Nat) : LE P (e.dwInit 0 (P.sh b)) (f.dwInit 0 b) :=
  h.modO b (fun x => { x with dwIndex := some (x.dwIndex.getD 0) }) fun _ => rfl

theorem evalDoWhile (H : Ok P) (h : LE P e f) (b : Nat) (td : TaskDef) :
    LR P (Eng.evalDoWhile env e 0 (P.sh b) td) (Eng.evalDoWhile (envE P env) f 0 b td) := by
  have h1 := (h.dwInit b).evalActivity (env := env) H b
  unfold Eng.evalDoWhile
  revert h1
  generalize Eng.evalActivity env (e.dwInit 0 (P.sh b)) 0 (P.sh b) = u
  generalize Eng.evalActivity (envE P env) (f.dwInit 0 b) 0 b = v
  obtain ⟨u1, u2⟩ := u
  obtain ⟨v1, v2⟩ := v
  intro h1
  obtain ⟨h1, h2⟩ := h1
  have h1 : LE P u1 v1 := h1
  have h2 : u2 = v2 := h2
  subst h2
  cases u2 with
  | error err => exact ⟨h1.setStatus b _, rfl⟩
  | ok d =>
    cases d
    · exact ⟨h1.setStatus b _, rfl⟩
    · exact h1.dwCheck b td

theorem postDoWhile (H : Ok P) (h : LE P e f) (b : Nat) (td : TaskDef) :
    LR P (Eng.postDoWhile env e 0 (P.sh b) td) (Eng.postDoWhile (envE P env) f 0 b td) := by
  have h1 := (h.dwInit b).postOnce (env := env) H b
  unfold Eng.postDoWhile
  revert h1
  generalize Eng.postOnce env (e.dwInit 0 (P.sh b)) 0 (P.sh b) = u
  generalize Eng.postOnce (envE P env) (f.dwInit 0 b) 0 b = v
  obtain ⟨u1, u2⟩ := u
  obtain ⟨v1, v2⟩ := v
  intro h1
  obtain ⟨h1, h2⟩ := h1
  have h1 : LE P u1 v1 := h1
  have h2 : u2 = v2 := h2
  subst h2
  cases u2 with
  | error err => exact ⟨h1.setStatus b _, rfl⟩
  | ok d => exact (h1.setStatus b .done).dwCheck b td

theorem evalKind (H : Ok P) (h : LE P e f) (b : Nat) (td : TaskDef) :
    LR P (Eng.evalKind env e 0 (P.sh b) td) (Eng.evalKind (envE P env) f 0 b td) := by
  unfold Eng.evalKind
  split
  · exact h.evalBasic H b
  · exact h.evalIter H b td
  · exact h.evalDoWhile H b td

theorem postKind (H : Ok P) (h : LE P e f) (b : Nat) (td : TaskDef) :
    LR P (Eng.postKind env e 0 (P.sh b) td) (Eng.postKind (envE P env) f 0 b td) := by
  unfold Eng.postKind
  split
  · exact h.postBasic H b
  · exact h.postIter H b
  · exact h.postDoWhile H b td

end LE

end Lift

end Flow
