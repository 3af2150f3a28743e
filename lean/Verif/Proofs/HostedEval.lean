import Verif.Proofs.Hosted
import Verif.Proofs.Retry

/-
How the evaluation of a task changes the number of work items and of running subflows of its flow instance.
-/

namespace Flow.GraphM
open Spec Eng

/-- A code for the work items `c` and the running subflows `l` of a task object: one work item, one subflow, or neither. -/
def load (c l : Nat) : Nat := if l = 0 ∧ c ≤ 1 then c else if c = 0 ∧ l = 1 then 2 else 3

theorem load_zero {c l : Nat} : load c l = 0 ↔ c = 0 ∧ l = 0 := by
  unfold load; split
  · omega
  · split <;> omega

theorem load_one {c l : Nat} : load c l = 1 ↔ c = 1 ∧ l = 0 := by
  unfold load; split
  · omega
  · split <;> omega

theorem load_two {c l : Nat} : load c l = 2 ↔ c = 0 ∧ l = 1 := by
  unfold load; split
  · omega
  · split <;> omega

theorem load_le {c l : Nat} : load c l ≤ 2 ↔ c + l ≤ 1 := by
  unfold load; split
  · omega
  · split <;> omega

/-- The load of a task object. -/
def loadOf (e : Eng) (i o : Nat) : Nat := load (cntOf e i o) (liveOf e i o)

/-- A step that adds a running subflow to task object `o` of instance `i` if `b`, and nothing else to instance `i`. -/
structure Born (i o : Nat) (b : Bool) (e e' : Eng) : Prop where
  cnt : ∀ p, cntOf e' i p = cntOf e i p
  live : ∀ p, liveOf e' i p = liveOf e i p + if b = true ∧ p = o then 1 else 0

/-- The activity is to be continued later. -/
def isWait : Except Err Bool → Bool
  | .ok false => true
  | _ => false

namespace Born

variable {env : Env} {i j o : Nat} {b : Bool} {e e' f : Eng}

theorem kept (h1 : ∀ p, cntOf e' i p = cntOf e i p) (h2 : ∀ p, liveOf e' i p = liveOf e i p) : Born i o false e e' :=
  ⟨h1, fun p => by rw [h2, if_neg (fun hc => Bool.false_ne_true hc.1), Nat.add_zero]⟩

theorem liveEq (h : Born i o false e e') (p : Nat) : liveOf e' i p = liveOf e i p := by
  rw [h.live, if_neg (fun hc => Bool.false_ne_true hc.1), Nat.add_zero]

theorem refl (e : Eng) : Born i o false e e := kept (fun _ => rfl) (fun _ => rfl)

theorem trans (h : Born i o false e e') (g : Born i o b e' f) : Born i o b e f :=
  ⟨fun p => (g.cnt p).trans (h.cnt p), fun p => by rw [g.live, h.liveEq]⟩

theorem trans' (h : Born i o b e e') (g : Born i o false e' f) : Born i o b e f :=
  ⟨fun p => (g.cnt p).trans (h.cnt p), fun p => by rw [g.liveEq, h.live]⟩

theorem modI {f : Inst → Inst} (h : ∀ J, e.insts[j]? = some J → (f J).host = J.host ∧ (endings (f J) = endings J ∨ ∀ p, J.host ≠ some (i, p))) :
    Born i o false e (e.modI j f) := by
  refine kept (fun _ => rfl) fun p => countP_modify_eq fun J hJ => ?_
  obtain ⟨h1, h2 | h2⟩ := h J hJ
  · rw [h1, h2]
  · rw [h1, decide_eq_false (fun hx => h2 p hx.1), decide_eq_false (fun hx => h2 p hx.1)]

theorem mild {f : Inst → Inst} (h : ∀ J, e.insts[j]? = some J → Mild J (f J)) : Born i o false e (e.modI j f) :=
  modI fun J hJ => ⟨(h J hJ).aged.host, Or.inl (h J hJ).ends⟩

theorem schedule (hj : j ≠ i) (p : Nat) : Born i o false e (e.schedule j p) := by
  refine kept (fun q => ?_) (fun _ => rfl)
  unfold cntOf Eng.schedule
  rw [List.countP_append]
  simp [hj]

theorem enterStart (es : List TaskEntry) (e : Eng) (hj : j ≠ i) : Born i o false e (enterStart env e j es) := by
  induction es generalizing e with
  | nil => exact .refl _
  | cons x xs ih =>
    unfold Eng.enterStart
    split
    · exact .refl _
    · rename_i I hI
      have h1 : Born i o false e (e.modI j (fun _ => (I.enterTask x.task).1)) :=
        mild fun J hJ => by rw [hI] at hJ; cases hJ; exact .calm (Calm.enterTask I x.task)
      dsimp only
      split
      · split
        · exact (h1.trans (.schedule hj _)).trans (ih _)
        · exact h1
      · exact h1.trans (ih _)

theorem startInstance (e : Eng) (ins : AMap String Val) (hj : j ≠ i) : Born i o false e (startInstance env e j ins) := by
  unfold Eng.startInstance
  split
  · exact .refl _
  · rename_i I hI
    exact (modI (fun J hJ => by rw [hI] at hJ; cases hJ; exact ⟨rfl, Or.inl rfl⟩)).trans (enterStart _ _ hj)

theorem startSubFlow (e : Eng) (uri : String) (ins : AMap String Val) (hi : i < e.insts.length) :
    Born i o (isWait (e.startSubFlow env i o uri ins).2) e (e.startSubFlow env i o uri ins).1 := by
  unfold Eng.startSubFlow
  cases env.defs uri with
  | error err => exact .refl _
  | ok x =>
  cases x with
  | none => exact .refl _
  | some d =>
    show Born i o true e (Eng.startInstance env (e.newEmbedded i o uri d) e.insts.length (subflowInputs d ins))
    refine .trans' (e' := e.newEmbedded i o uri d) ⟨fun _ => rfl, fun p => ?_⟩ (startInstance _ _ (by omega))
    unfold liveOf Eng.newEmbedded
    dsimp only
    rw [List.countP_append, List.countP_singleton]
    congr 1
    by_cases hp : p = o
    · subst hp; rw [if_pos (decide_eq_true ⟨rfl, rfl⟩), if_pos ⟨rfl, rfl⟩]
    · rw [if_neg, if_neg (fun hc => hp hc.2)]
      intro hc
      have hc := (of_decide_eq_true hc).1
      rw [Option.some.injEq, Prod.mk.injEq] at hc
      exact hp hc.2.symm

theorem evals (h : Evals env i o none e e') : Born i o false e e' := by
  generalize hs : (none : Option String) = s at h
  induction h with
  | refl e => exact .refl _
  | inst e f h => exact mild fun J hJ => .same (h J hJ)
  | reply e r => exact kept (fun _ => rfl) (fun _ => rfl)
  | sub e uri d inputs h _ _ => rw [h] at hs; cases hs
  | trans _ _ ih1 ih2 => exact ih1.trans ih2

end Born

variable {env : Env} {i o : Nat} {e e' : Eng}

theorem born_callActivity (e : Eng) (ob : Obj) (td : TaskDef) (h : (e.obj? i o).map (·.task) = some ob.task) :
    Born i o (td.act.sub?.isSome && isWait (e.callActivity env i o ob td).2.1) e (e.callActivity env i o ob td).1 := by
  have hev := Evals.callActivity (env := env) e ob td h
  cases hs : td.act.sub? with
  | none => rw [hs] at hev; exact .evals hev
  | some uri =>
    have hlt : i < e.insts.length := by
      cases ho : e.obj? i o with
      | none => simp [ho] at h
      | some ob' => exact lt_of_obj? ho
    have ha : td.act = .subflow uri := by
      revert hs
      cases td.act <;> simp [ActKind.sub?]
    have hpush : Born i o false e (e.modI i (fun I => { I with trace := .evalAct o ob.task :: I.trace })) :=
      .modI fun J _ => ⟨rfl, Or.inl rfl⟩
    unfold Eng.callActivity
    rw [ha]
    dsimp only
    have hb := Born.startSubFlow (env := env) (o := o) (e.modI i (fun I => { I with trace := .evalAct o ob.task :: I.trace })) uri
      ((((e.modI i (fun I => { I with trace := .evalAct o ob.task :: I.trace })).obj? i o).map (·.inputs)).getD []) (by simpa using hlt)
    refine hpush.trans ?_
    exact hb

theorem afterDone_done (e : Eng) (ob : Obj) (td : TaskDef) : isWait (e.afterDone env i o ob td).2 = false := by
  unfold Eng.afterDone
  split
  · rfl
  · generalize Eng.andThen _ _ = r
    obtain ⟨f, x⟩ := r
    cases x <;> rfl

theorem born_evalWith (p : Eng × Bool) (ob : Obj) (td : TaskDef) (h : (p.1.obj? i o).map (·.task) = some ob.task) :
    Born i o (td.act.sub?.isSome && isWait (evalWith env p i o ob td).2) p.1 (evalWith env p i o ob td).1 := by
  have had : ∀ f : Eng, Born i o (td.act.sub?.isSome && isWait (f.afterDone env i o ob td).2) f (f.afterDone env i o ob td).1 := by
    intro f
    rw [afterDone_done, Bool.and_false]
    exact .evals (Evals.afterDone _ _ _)
  unfold Eng.evalWith
  split
  · exact had _
  · split
    · simpa [isWait] using Born.refl (i := i) (o := o) p.1
    · split
      · exact had _
      · have hc := born_callActivity (env := env) p.1 ob td h
        split
        · rename_i hx
          rw [hx] at hc
          have hc : Born i o (td.act.sub?.isSome && false) _ _ := hc
          rw [Bool.and_false] at hc
          show Born i o (td.act.sub?.isSome && false) _ _
          rw [Bool.and_false]
          refine hc.trans ?_
          dsimp only
          split
          · exact .refl _
          · exact .evals (env := env) (Evals.evalErrorData _ _ _)
        · rename_i hx
          rw [hx] at hc
          have hc : Born i o (td.act.sub?.isSome && false) _ _ := hc
          rw [Bool.and_false] at hc
          exact hc.trans (had _)
        · rename_i hx
          rw [hx] at hc
          exact hc

theorem born_evalOnce (e : Eng) : Born i o ((e.subOf i o).isSome && isWait (e.evalOnce env i o).2) e (e.evalOnce env i o).1 := by
  unfold Eng.evalOnce
  cases ho : e.obj? i o with
  | none => simpa [isWait] using Born.refl (i := i) (o := o) e
  | some ob =>
    dsimp only
    cases ht : e.taskDef? i ob.task with
    | none => simpa [isWait] using Born.refl (i := i) (o := o) e
    | some td =>
      dsimp only
      have hsub : e.subOf i o = td.act.sub? := by simp [Eng.subOf, ho, ht]
      rw [hsub]
      have h1 := Evals.applyInputMapper (env := env) (i := i) (o := o) (s := none) e td.name
      split
      · rename_i hx; rw [hx] at h1
        show Born i o (td.act.sub?.isSome && false) _ _
        rw [Bool.and_false]; exact .evals h1
      · rename_i e1 hx
        rw [hx] at h1
        have h2 := h1.trans (Evals.inputInterceptor (env := env) (i := i) (o := o) (s := none) e1 ob)
        refine (Born.evals h2).trans (born_evalWith _ ob td ?_)
        obtain ⟨ob', ho', ht', _⟩ := h2.obj_task ho
        simp [ho', ht']

/-- The evaluation after a change of the state that keeps the task. -/
theorem born_evalOnce' {e0 : Eng} {ob : Obj} {s : Option String} (ho : e0.obj? i o = some ob) (h : Evals env i o s e0 e) (hb : Born i o false e0 e) :
    Born i o ((e0.subOf i o).isSome && isWait (e.evalOnce env i o).2) e0 (e.evalOnce env i o).1 := by
  have h1 := born_evalOnce (env := env) (i := i) (o := o) e
  rw [h.subOf_eq ho] at h1
  exact hb.trans h1

theorem born_retryFrom {e0 : Eng} {ob : Obj} (ho : e0.obj? i o = some ob) (n : Nat) {e : Eng}
    (h : Evals env i o (e0.subOf i o) e0 e) (hb : Born i o false e0 e) :
    Born i o ((e0.subOf i o).isSome && isWait (retryFrom env n e i o).2) e0 (retryFrom env n e i o).1 := by
  induction n generalizing e with
  | zero => exact born_evalOnce' ho (h.trans (Evals.setRetry _ _)) (hb.trans (.evals (env := env) (Evals.setRetry _ _)))
  | succ n ih =>
    have h2 := Evals.evalOnce' ho (h.trans (Evals.setRetry e (n + 1)))
    have h3 := born_evalOnce' ho (h.trans (Evals.setRetry e (n + 1))) (hb.trans (.evals (env := env) (Evals.setRetry _ _)))
    simp only [Eng.retryFrom]
    split
    · rename_i e1 err hx
      rw [hx] at h2 h3
      have h3 : Born i o ((e0.subOf i o).isSome && false) e0 e1 := h3
      rw [Bool.and_false] at h3
      split
      · exact ih h2 h3
      · show Born i o ((e0.subOf i o).isSome && false) e0 e1
        rw [Bool.and_false]; exact h3
    · exact h3

theorem born_evalActivity {ob : Obj} (ho : e.obj? i o = some ob) :
    Born i o ((e.subOf i o).isSome && isWait (e.evalActivity env i o).2) e (e.evalActivity env i o).1 := by
  have h2 := Evals.evalOnce (env := env) (i := i) (o := o) e
  have h3 := born_evalOnce (env := env) (i := i) (o := o) e
  unfold Eng.evalActivity
  split
  · rename_i hx; rw [hx] at h3; exact h3
  · rename_i e1 err hx
    rw [hx] at h2 h3
    have h3 : Born i o ((e.subOf i o).isSome && false) e e1 := h3
    rw [Bool.and_false] at h3
    have hf : ∀ f : Eng, ∀ x : Err, Born i o false e f → Born i o ((e.subOf i o).isSome && isWait (.error x)) e f := by
      intro f x hf
      show Born i o ((e.subOf i o).isSome && false) e f
      rw [Bool.and_false]; exact hf
    split
    · have h4 := Evals.getRetry (env := env) (i := i) (o := o) (s := none) e1
      split
      · rename_i hy; rw [hy] at h4; exact hf _ _ (h3.trans (.evals h4))
      · rename_i hy
        rw [hy] at h4
        split
        · exact born_retryFrom ho _ (h2.trans h4.mono) (h3.trans (.evals h4))
        · exact hf _ _ (h3.trans (.evals h4))
    · exact hf _ _ h3

/-- The result of a behavior: the task waits. -/
def waits : EvalOut → Bool
  | .res .wait => true
  | _ => false

theorem born_evalBasic {ob : Obj} (ho : e.obj? i o = some ob) :
    Born i o ((e.subOf i o).isSome && waits (e.evalBasic env i o).2) e (e.evalBasic env i o).1 := by
  have h := born_evalActivity (env := env) ho
  unfold Eng.evalBasic
  split <;> rename_i hx <;> rw [hx] at h <;> exact h

theorem born_postBasic {ob : Obj} (ho : e.obj? i o = some ob) :
    Born i o ((e.subOf i o).isSome && waits (e.postBasic env i o).2) e (e.postBasic env i o).1 := by
  have h1 := Evals.postOnce (env := env) (i := i) (o := o) (s := none) e
  have hf : ∀ f : Eng, ∀ x : EvalOut, waits x = false → Born i o false e f → Born i o ((e.subOf i o).isSome && waits x) e f := by
    intro f x hx hf
    rw [hx, Bool.and_false]; exact hf
  unfold Eng.postBasic
  split
  · rename_i hx; rw [hx] at h1; exact hf _ _ rfl (.evals h1)
  · rename_i e1 err hx
    rw [hx] at h1
    split
    · have h3 := h1.trans (Evals.getRetry e1)
      split
      · rename_i hy; rw [hy] at h3; exact hf _ _ rfl (.evals h3)
      · rename_i e2 c hy
        rw [hy] at h3
        split
        · have h4 := born_retryFrom (env := env) ho (c.toNat - 1) h3.mono (.evals h3)
          split <;> rename_i hz <;> rw [hz] at h4 <;> exact h4
        · exact hf _ _ rfl (.evals h3)
    · exact hf _ _ rfl (.evals h1)

/-- A task without retry is not evaluated again when it resumes. -/
theorem postBasic_noRetry {ob : Obj} {td : TaskDef} (ho : e.obj? i o = some ob) (htd : e.taskDef? i ob.task = some td) (hr : td.retry = false) :
    (e.postBasic env i o).1 = (e.postOnce env i o).1 ∧ waits (e.postBasic env i o).2 = false := by
  have h1 := Evals.postOnce (env := env) (i := i) (o := o) (s := none) e
  unfold Eng.postBasic
  split
  · rename_i hx; rw [hx]; exact ⟨rfl, rfl⟩
  · rename_i e1 err hx
    rw [hx] at h1 ⊢
    have hh : e1.hasRetry i o = false := by
      obtain ⟨I, hI, _⟩ := obj?_some ho
      obtain ⟨ob', ho', ht', _⟩ := h1.obj_task ho
      unfold Eng.hasRetry
      rw [ho']
      dsimp only
      rw [ht', h1.taskDef? hI, htd]
      exact hr
    rw [hh, Bool.and_false, if_neg Bool.false_ne_true]
    exact ⟨rfl, rfl⟩

end Flow.GraphM
