import Verif.Spec.Record
import Verif.Proofs.EngOK

/-
Replaying recorded steps yields the same as applying the calls one after the other.
-/

namespace Flow
open Spec

/-- Calls about one task or link. -/
inductive KOp (S : Type)
  | new
  | add (s : S)
  | upd (s : S)
  | del

namespace KOp

variable {S : Type}

/-- What the tracker records. -/
def record (z : S) (p : Bool × Option (KeyChg S)) : KOp S → Bool × Option (KeyChg S)
  | .new => (true, none)
  | .add s => (p.1, some { p.2.getD { status := z } with status := s })
  | .upd s => (p.1, some { chg := .update, status := s })
  | .del => (p.1, some { p.2.getD { status := z } with chg := .delete })

/-- What happens. -/
def direct (_ : Option S) : KOp S → Option S
  | .new => none
  | .add s => some s
  | .upd s => some s
  | .del => none

def settles : KOp S → Bool
  | .add _ => false
  | _ => true

def Settled (ops : List (KOp S)) : Prop :=
  ∀ pre s post, ops = pre ++ .add s :: post → .del ∈ pre → ∃ x ∈ post, x.settles = true

theorem record_inv (z : S) (v : Option S) (ops : List (KOp S)) :
    let p := ops.foldl (record z) (false, none)
    let d := ops.foldl direct v
    (∀ s, p.2 = some ⟨.delete, s⟩ → .del ∈ ops) ∧
    (applyChg (if p.1 then none else v) p.2 = d ∨
      ∃ pre s post, ops = pre ++ .add s :: post ∧ .del ∈ pre ∧ ∀ x ∈ post, x.settles = false) := by
  suffices h : ∀ rs : List (KOp S), let ops := rs.reverse
      let p := ops.foldl (record z) (false, none)
      let d := ops.foldl direct v
      (∀ s, p.2 = some ⟨.delete, s⟩ → .del ∈ ops) ∧
      (applyChg (if p.1 then none else v) p.2 = d ∨
        ∃ pre s post, ops = pre ++ .add s :: post ∧ .del ∈ pre ∧ ∀ x ∈ post, x.settles = false) by
    have := h ops.reverse
    rw [List.reverse_reverse] at this
    exact this
  intro rs
  induction rs with
  | nil => exact ⟨by simp, Or.inl rfl⟩
  | cons x xs ih =>
    simp only [List.reverse_cons, List.foldl_append, List.foldl_cons, List.foldl_nil] at ih ⊢
    generalize List.foldl (record z) (false, none) xs.reverse = p at ih ⊢
    generalize List.foldl direct v xs.reverse = d at ih ⊢
    obtain ⟨h1, h2⟩ := ih
    cases x with
    | new => exact ⟨by simp [record], Or.inl rfl⟩
    | upd s => exact ⟨by simp [record], Or.inl rfl⟩
    | del => exact ⟨by simp, Or.inl rfl⟩
    | add s =>
      refine ⟨fun s' hs => ?_, ?_⟩
      · refine List.mem_append_left _ ?_
        obtain ⟨b, c⟩ := p
        cases c with
        | none => simp [record] at hs
        | some c =>
          simp only [record, Option.getD_some, Option.some.injEq, KeyChg.mk.injEq] at hs
          exact h1 c.status (by rw [show c = ⟨c.chg, c.status⟩ from rfl, hs.1])
      · by_cases hd : ∃ s', p.2 = some ⟨.delete, s'⟩
        · obtain ⟨s', hs'⟩ := hd
          exact Or.inr ⟨xs.reverse, s, [], rfl, h1 s' hs', by simp⟩
        · left
          obtain ⟨b, c⟩ := p
          cases c with
          | none => rfl
          | some c =>
            have : c.chg ≠ .delete := fun hc => hd ⟨c.status, by rw [← hc]⟩
            simp [record, applyChg, direct, this]

/-- If the calls are settled, the recorded change says what happened. -/
theorem record_direct (z : S) (v : Option S) {ops : List (KOp S)} (h : Settled ops) :
    applyChg (if (ops.foldl (record z) (false, none)).1 then none else v) (ops.foldl (record z) (false, none)).2 =
      ops.foldl direct v := by
  rcases (record_inv z v ops).2 with h1 | ⟨pre, s, post, h2, h3, h4⟩
  · exact h1
  · obtain ⟨x, h5, h6⟩ := h pre s post h2 h3
    rw [h4 x h5] at h6; cases h6

end KOp

/-! ### Steps -/

/-- The calls about task `k` of flow instance `sid`. -/
def opT (sid : Nat) (k : TaskId) : Call → Option (KOp TaskStatus)
  | .flowCreated .. => if sid = 0 then some .new else none
  | .subflowCreated i .. => if i = sid then some .new else none
  | .taskAdded i _ t s => if i = sid ∧ t = k then some (.add s) else none
  | .taskUpdated i _ t s => if i = sid ∧ t = k then some (.upd s) else none
  | .taskRemoved i t => if i = sid ∧ t = k then some .del else none
  | _ => none

/-- The calls about link `k`. -/
def opL (sid : Nat) (k : LinkId) : Call → Option (KOp LinkStatus)
  | .flowCreated .. => if sid = 0 then some .new else none
  | .subflowCreated i .. => if i = sid then some .new else none
  | .linkAdded i l s => if i = sid ∧ l = k then some (.add s) else none
  | .linkUpdated i l s => if i = sid ∧ l = k then some (.upd s) else none
  | .linkRemoved i l => if i = sid ∧ l = k then some .del else none
  | _ => none

/-- What a step says about task `k`. -/
def StepRec.taskPart (s : StepRec) (sid : Nat) (k : TaskId) : Bool × Option (KeyChg TaskStatus) :=
  match s.flows.get? sid with
  | none => (false, none)
  | some c => (c.newFlow, c.tasks.get? k)

def StepRec.linkPart (s : StepRec) (sid : Nat) (k : LinkId) : Bool × Option (KeyChg LinkStatus) :=
  match s.flows.get? sid with
  | none => (false, none)
  | some c => (c.newFlow, c.links.get? k)

/-- The new-flow flag and the status in a step. -/
def StepRec.statusPart (s : StepRec) (sid : Nat) : Bool × FlowStatus :=
  match s.flows.get? sid with
  | none => (false, .notStarted)
  | some c => (c.newFlow, c.status)

theorem modFlow_get (s : StepRec) (i sid : Nat) (f : FlowChg → FlowChg) :
    (s.modFlow i f).flows.get? sid = if i = sid then some (f ((s.flows.get? i).getD {})) else s.flows.get? sid :=
  AMap.get?_set _ _ _ _

theorem taskPart_call (s : StepRec) (sid : Nat) (k : TaskId) (c : Call) :
    (s.call c).taskPart sid k = match opT sid k c with
      | none => s.taskPart sid k
      | some op => KOp.record .notStarted (s.taskPart sid k) op := by
  cases c with
  | flowCreated uri st =>
    simp only [StepRec.call, StepRec.taskPart, opT, AMap.get?_set]
    by_cases h : sid = 0
    · subst h; simp [KOp.record]
    · have : ¬ 0 = sid := fun hc => h hc.symm
      simp [h, this]
  | subflowCreated i uri host st =>
    simp only [StepRec.call, StepRec.taskPart, opT, AMap.get?_set]
    by_cases h : i = sid
    · subst h; simp [KOp.record]
    · simp [h]
  | setStatus i st =>
    simp only [StepRec.call, StepRec.taskPart, opT, modFlow_get]
    by_cases h : i = sid
    · subst h; cases s.flows.get? i <;> simp
    · simp [h]
  | attrChange i n v =>
    simp only [StepRec.call, StepRec.taskPart, opT, modFlow_get]
    by_cases h : i = sid
    · subst h; cases s.flows.get? i <;> simp
    · simp [h]
  | taskAdded i uri t st =>
    simp only [StepRec.call, StepRec.taskPart, opT, modFlow_get]
    by_cases h : i = sid
    · subst h
      by_cases ht : t = k
      · subst ht; cases s.flows.get? i <;> simp [FlowChg.modTask, AMap.get?_set, KOp.record]
      · cases s.flows.get? i <;> simp [FlowChg.modTask, AMap.get?_set, ht]
    · simp [h]
  | taskUpdated i uri t st =>
    simp only [StepRec.call, StepRec.taskPart, opT, modFlow_get]
    by_cases h : i = sid
    · subst h
      by_cases ht : t = k
      · subst ht; cases s.flows.get? i <;> simp [FlowChg.modTask, AMap.get?_set, KOp.record]
      · cases s.flows.get? i <;> simp [FlowChg.modTask, AMap.get?_set, ht]
    · simp [h]
  | taskRemoved i t =>
    simp only [StepRec.call, StepRec.taskPart, opT, modFlow_get]
    by_cases h : i = sid
    · subst h
      by_cases ht : t = k
      · subst ht; cases s.flows.get? i <;> simp [FlowChg.modTask, AMap.get?_set, KOp.record]
      · cases s.flows.get? i <;> simp [FlowChg.modTask, AMap.get?_set, ht]
    · simp [h]
  | linkAdded i l st =>
    simp only [StepRec.call, StepRec.taskPart, opT, modFlow_get]
    by_cases h : i = sid
    · subst h; cases s.flows.get? i <;> simp [FlowChg.modLink]
    · simp [h]
  | linkUpdated i l st =>
    simp only [StepRec.call, StepRec.taskPart, opT, modFlow_get]
    by_cases h : i = sid
    · subst h; cases s.flows.get? i <;> simp [FlowChg.modLink]
    · simp [h]
  | linkRemoved i l =>
    simp only [StepRec.call, StepRec.taskPart, opT, modFlow_get]
    by_cases h : i = sid
    · subst h; cases s.flows.get? i <;> simp [FlowChg.modLink]
    · simp [h]
  | itemAdded id t => rfl
  | itemRemoved id t => rfl

theorem linkPart_call (s : StepRec) (sid : Nat) (k : LinkId) (c : Call) :
    (s.call c).linkPart sid k = match opL sid k c with
      | none => s.linkPart sid k
      | some op => KOp.record .unset (s.linkPart sid k) op := by
  cases c with
  | flowCreated uri st =>
    simp only [StepRec.call, StepRec.linkPart, opL, AMap.get?_set]
    by_cases h : sid = 0
    · subst h; simp [KOp.record]
    · have : ¬ 0 = sid := fun hc => h hc.symm
      simp [h, this]
  | subflowCreated i uri host st =>
    simp only [StepRec.call, StepRec.linkPart, opL, AMap.get?_set]
    by_cases h : i = sid
    · subst h; simp [KOp.record]
    · simp [h]
  | setStatus i st =>
    simp only [StepRec.call, StepRec.linkPart, opL, modFlow_get]
    by_cases h : i = sid
    · subst h; cases s.flows.get? i <;> simp
    · simp [h]
  | attrChange i n v =>
    simp only [StepRec.call, StepRec.linkPart, opL, modFlow_get]
    by_cases h : i = sid
    · subst h; cases s.flows.get? i <;> simp
    · simp [h]
  | linkAdded i t st =>
    simp only [StepRec.call, StepRec.linkPart, opL, modFlow_get]
    by_cases h : i = sid
    · subst h
      by_cases ht : t = k
      · subst ht; cases s.flows.get? i <;> simp [FlowChg.modLink, AMap.get?_set, KOp.record]
      · cases s.flows.get? i <;> simp [FlowChg.modLink, AMap.get?_set, ht]
    · simp [h]
  | linkUpdated i t st =>
    simp only [StepRec.call, StepRec.linkPart, opL, modFlow_get]
    by_cases h : i = sid
    · subst h
      by_cases ht : t = k
      · subst ht; cases s.flows.get? i <;> simp [FlowChg.modLink, AMap.get?_set, KOp.record]
      · cases s.flows.get? i <;> simp [FlowChg.modLink, AMap.get?_set, ht]
    · simp [h]
  | linkRemoved i t =>
    simp only [StepRec.call, StepRec.linkPart, opL, modFlow_get]
    by_cases h : i = sid
    · subst h
      by_cases ht : t = k
      · subst ht; cases s.flows.get? i <;> simp [FlowChg.modLink, AMap.get?_set, KOp.record]
      · cases s.flows.get? i <;> simp [FlowChg.modLink, AMap.get?_set, ht]
    · simp [h]
  | taskAdded i uri l st =>
    simp only [StepRec.call, StepRec.linkPart, opL, modFlow_get]
    by_cases h : i = sid
    · subst h; cases s.flows.get? i <;> simp [FlowChg.modTask]
    · simp [h]
  | taskUpdated i uri l st =>
    simp only [StepRec.call, StepRec.linkPart, opL, modFlow_get]
    by_cases h : i = sid
    · subst h; cases s.flows.get? i <;> simp [FlowChg.modTask]
    · simp [h]
  | taskRemoved i l =>
    simp only [StepRec.call, StepRec.linkPart, opL, modFlow_get]
    by_cases h : i = sid
    · subst h; cases s.flows.get? i <;> simp [FlowChg.modTask]
    · simp [h]
  | itemAdded id t => rfl
  | itemRemoved id t => rfl

/-- The record after a group of calls. -/
theorem foldl_cur (t : Tracker) (cs : List Call) : (cs.foldl Tracker.call t).cur = cs.foldl StepRec.call t.cur := by
  induction cs generalizing t with
  | nil => rfl
  | cons c cs ih => exact ih _

theorem taskPart_calls (s : StepRec) (sid : Nat) (k : TaskId) (cs : List Call) :
    (cs.foldl StepRec.call s).taskPart sid k =
      (cs.filterMap (opT sid k)).foldl (KOp.record .notStarted) (s.taskPart sid k) := by
  induction cs generalizing s with
  | nil => rfl
  | cons c cs ih =>
    rw [List.foldl_cons, ih, taskPart_call, List.filterMap_cons]
    cases opT sid k c <;> rfl

theorem linkPart_calls (s : StepRec) (sid : Nat) (k : LinkId) (cs : List Call) :
    (cs.foldl StepRec.call s).linkPart sid k =
      (cs.filterMap (opL sid k)).foldl (KOp.record .unset) (s.linkPart sid k) := by
  induction cs generalizing s with
  | nil => rfl
  | cons c cs ih =>
    rw [List.foldl_cons, ih, linkPart_call, List.filterMap_cons]
    cases opL sid k c <;> rfl

theorem apply_tasks (v : View) (s : StepRec) (sid : Nat) (k : TaskId) :
    (v.apply (s.flows.get? sid)).tasks k =
      applyChg (if (s.taskPart sid k).1 then none else v.tasks k) (s.taskPart sid k).2 := by
  unfold StepRec.taskPart
  cases s.flows.get? sid with
  | none => rfl
  | some c => cases h : c.newFlow <;> simp [View.apply, h]

theorem apply_links (v : View) (s : StepRec) (sid : Nat) (k : LinkId) :
    (v.apply (s.flows.get? sid)).links k =
      applyChg (if (s.linkPart sid k).1 then none else v.links k) (s.linkPart sid k).2 := by
  unfold StepRec.linkPart
  cases s.flows.get? sid with
  | none => rfl
  | some c => cases h : c.newFlow <;> simp [View.apply, h]

theorem apply_status (v : View) (s : StepRec) (sid : Nat) :
    (v.apply (s.flows.get? sid)).status =
      if (s.statusPart sid).2 = .notStarted then (if (s.statusPart sid).1 then .notStarted else v.status) else (s.statusPart sid).2 := by
  unfold StepRec.statusPart
  cases s.flows.get? sid with
  | none => rfl
  | some c => cases h : c.newFlow <;> simp [View.apply, h]

/-- Replaying the steps of a tracker whose current step is empty. -/
theorem replay_tasks {t : Tracker} (ht : t.cur.flows = []) (sid : Nat) (k : TaskId) (v : View) (css : List (List Call))
    (h : ∀ cs ∈ css, KOp.Settled (cs.filterMap (opT sid k))) :
    ((t.steps css).foldl (fun v s => v.apply (s.flows.get? sid)) v).tasks k =
      (css.flatten.filterMap (opT sid k)).foldl KOp.direct (v.tasks k) := by
  induction css generalizing t v with
  | nil => rfl
  | cons cs css ih =>
    simp only [Tracker.steps, List.foldl_cons, List.flatten_cons, List.filterMap_append, List.foldl_append]
    rw [ih (by rfl) _ (fun x hx => h x (List.mem_cons_of_mem _ hx))]
    congr 1
    rw [apply_tasks]
    show applyChg (if ((cs.foldl Tracker.call t).cur.taskPart sid k).1 then none else v.tasks k) ((cs.foldl Tracker.call t).cur.taskPart sid k).2 = _
    rw [foldl_cur, taskPart_calls, show t.cur.taskPart sid k = (false, none) by simp [StepRec.taskPart, ht]]
    exact KOp.record_direct _ _ (h cs (List.mem_cons_self ..))

theorem replay_links {t : Tracker} (ht : t.cur.flows = []) (sid : Nat) (k : LinkId) (v : View) (css : List (List Call))
    (h : ∀ cs ∈ css, KOp.Settled (cs.filterMap (opL sid k))) :
    ((t.steps css).foldl (fun v s => v.apply (s.flows.get? sid)) v).links k =
      (css.flatten.filterMap (opL sid k)).foldl KOp.direct (v.links k) := by
  induction css generalizing t v with
  | nil => rfl
  | cons cs css ih =>
    simp only [Tracker.steps, List.foldl_cons, List.flatten_cons, List.filterMap_append, List.foldl_append]
    rw [ih (by rfl) _ (fun x hx => h x (List.mem_cons_of_mem _ hx))]
    congr 1
    rw [apply_links]
    show applyChg (if ((cs.foldl Tracker.call t).cur.linkPart sid k).1 then none else v.links k) ((cs.foldl Tracker.call t).cur.linkPart sid k).2 = _
    rw [foldl_cur, linkPart_calls, show t.cur.linkPart sid k = (false, none) by simp [StepRec.linkPart, ht]]
    exact KOp.record_direct _ _ (h cs (List.mem_cons_self ..))

/-! ### Status -/

/-- The calls about the status of flow instance `sid`: `none` for a new flow. -/
def opS (sid : Nat) : Call → Option (Option FlowStatus)
  | .flowCreated _ s => if sid = 0 ∧ s = .notStarted then some none else none
  | .subflowCreated i _ _ s => if i = sid ∧ s = .notStarted then some none else none
  | .setStatus i s => if i = sid then some (some s) else none
  | _ => none

def recS (p : Bool × FlowStatus) : Option FlowStatus → Bool × FlowStatus
  | none => (true, .notStarted)
  | some s => (p.1, s)

def dirS (_ : FlowStatus) : Option FlowStatus → FlowStatus
  | none => .notStarted
  | some s => s

/-- New flows are announced as not started. -/
def Fresh : Call → Prop
  | .flowCreated _ s => s = .notStarted
  | .subflowCreated _ _ _ s => s = .notStarted
  | .setStatus _ s => s ≠ .notStarted
  | _ => True

theorem statusPart_call (s : StepRec) (sid : Nat) (c : Call) (hf : concerns sid c = true → Fresh c) :
    (s.call c).statusPart sid = match opS sid c with
      | none => s.statusPart sid
      | some op => recS (s.statusPart sid) op := by
  cases c with
  | flowCreated uri st =>
    simp only [StepRec.call, StepRec.statusPart, opS, AMap.get?_set]
    by_cases h : sid = 0
    · subst h
      have : st = .notStarted := hf rfl
      subst this; simp [recS]
    · have : ¬ 0 = sid := fun hc => h hc.symm
      simp [h, this]
  | subflowCreated i uri host st =>
    simp only [StepRec.call, StepRec.statusPart, opS, AMap.get?_set]
    by_cases h : i = sid
    · subst h
      have : st = .notStarted := hf (by simp [concerns])
      subst this; simp [recS]
    · simp [h]
  | setStatus i st =>
    simp only [StepRec.call, StepRec.statusPart, opS, modFlow_get]
    by_cases h : i = sid
    · subst h; cases s.flows.get? i <;> simp [recS]
    · simp [h]
  | attrChange i n v =>
    simp only [StepRec.call, StepRec.statusPart, opS, modFlow_get]
    by_cases h : i = sid
    · subst h; cases s.flows.get? i <;> simp
    · simp [h]
  | linkAdded i l st =>
    simp only [StepRec.call, StepRec.statusPart, opS, modFlow_get]
    by_cases h : i = sid
    · subst h; cases s.flows.get? i <;> simp [FlowChg.modLink]
    · simp [h]
  | linkUpdated i l st =>
    simp only [StepRec.call, StepRec.statusPart, opS, modFlow_get]
    by_cases h : i = sid
    · subst h; cases s.flows.get? i <;> simp [FlowChg.modLink]
    · simp [h]
  | linkRemoved i l =>
    simp only [StepRec.call, StepRec.statusPart, opS, modFlow_get]
    by_cases h : i = sid
    · subst h; cases s.flows.get? i <;> simp [FlowChg.modLink]
    · simp [h]
  | taskAdded i uri l st =>
    simp only [StepRec.call, StepRec.statusPart, opS, modFlow_get]
    by_cases h : i = sid
    · subst h; cases s.flows.get? i <;> simp [FlowChg.modTask]
    · simp [h]
  | taskUpdated i uri l st =>
    simp only [StepRec.call, StepRec.statusPart, opS, modFlow_get]
    by_cases h : i = sid
    · subst h; cases s.flows.get? i <;> simp [FlowChg.modTask]
    · simp [h]
  | taskRemoved i l =>
    simp only [StepRec.call, StepRec.statusPart, opS, modFlow_get]
    by_cases h : i = sid
    · subst h; cases s.flows.get? i <;> simp [FlowChg.modTask]
    · simp [h]
  | itemAdded id t => rfl
  | itemRemoved id t => rfl

theorem statusPart_calls (s : StepRec) (sid : Nat) (cs : List Call) (hf : ∀ c ∈ cs, concerns sid c = true → Fresh c) :
    (cs.foldl StepRec.call s).statusPart sid = (cs.filterMap (opS sid)).foldl recS (s.statusPart sid) := by
  induction cs generalizing s with
  | nil => rfl
  | cons c cs ih =>
    rw [List.foldl_cons, ih _ (fun x hx => hf x (List.mem_cons_of_mem _ hx)), statusPart_call _ _ _ (hf c (List.mem_cons_self ..)),
      List.filterMap_cons]
    cases opS sid c <;> rfl

theorem recS_dirS (v : FlowStatus) (p : Bool × FlowStatus) (ops : List (Option FlowStatus)) (h : ∀ s, some s ∈ ops → s ≠ .notStarted) :
    (if (ops.foldl recS p).2 = .notStarted then (if (ops.foldl recS p).1 then .notStarted else v) else (ops.foldl recS p).2) =
      ops.foldl dirS (if p.2 = .notStarted then (if p.1 then .notStarted else v) else p.2) := by
  induction ops generalizing p with
  | nil => rfl
  | cons x xs ih =>
    rw [List.foldl_cons, List.foldl_cons, ih _ (fun s hs => h s (List.mem_cons_of_mem _ hs))]
    congr 1
    cases x with
    | none => rfl
    | some s => simp [recS, dirS, h s (List.mem_cons_self ..)]

theorem replay_status {t : Tracker} (ht : t.cur.flows = []) (sid : Nat) (v : View) (css : List (List Call))
    (hf : ∀ c ∈ css.flatten, concerns sid c = true → Fresh c) :
    ((t.steps css).foldl (fun v s => v.apply (s.flows.get? sid)) v).status =
      (css.flatten.filterMap (opS sid)).foldl dirS v.status := by
  induction css generalizing t v with
  | nil => rfl
  | cons cs css ih =>
    simp only [Tracker.steps, List.foldl_cons, List.flatten_cons, List.filterMap_append, List.foldl_append]
    rw [ih (by rfl) _ (fun x hx => hf x (by rw [List.flatten_cons]; exact List.mem_append_right _ hx))]
    congr 1
    rw [apply_status]
    have hf' : ∀ c ∈ cs, concerns sid c = true → Fresh c :=
      fun c hc => hf c (by rw [List.flatten_cons]; exact List.mem_append_left _ hc)
    have h0 : (cs.foldl Tracker.call t).extract.1.statusPart sid = (cs.filterMap (opS sid)).foldl recS (false, .notStarted) := by
      show (cs.foldl Tracker.call t).cur.statusPart sid = _
      rw [foldl_cur, statusPart_calls _ _ _ hf', show t.cur.statusPart sid = (false, .notStarted) by simp [StepRec.statusPart, ht]]
    rw [h0, recS_dirS]
    · rfl
    · intro s hs
      obtain ⟨c, hc, hop⟩ := List.mem_filterMap.1 hs
      cases c with
      | setStatus i st =>
        simp only [opS] at hop
        split at hop <;> simp at hop
        subst hop
        rename_i hi
        exact hf' _ hc (by simp [concerns, hi])
      | _ => simp [opS] at hop

end Flow

namespace Flow
open Spec

/-! ### From the calls to the trace -/

theorem opL_none {sid : Nat} {k : LinkId} {c : Call} (h : concerns sid c = false) : opL sid k c = none := by
  cases c <;> simp_all [concerns, opL]

theorem opT_none {sid : Nat} {k : TaskId} {c : Call} (h : concerns sid c = false) : opT sid k c = none := by
  cases c <;> simp_all [concerns, opT]

theorem opS_none {sid : Nat} {c : Call} (h : concerns sid c = false) : opS sid c = none := by
  cases c <;> simp_all [concerns, opS]

theorem filterMap_concerns {A : Type} {sid : Nat} {f : Call → Option A} (h : ∀ c, concerns sid c = false → f c = none) (cs : List Call) :
    cs.filterMap f = (cs.filter (concerns sid)).filterMap f := by
  induction cs with
  | nil => rfl
  | cons c cs ih =>
    rw [List.filterMap_cons, List.filter_cons]
    cases hc : concerns sid c with
    | false => simp only [h c hc]; simpa using ih
    | true =>
      simp only [if_true, List.filterMap_cons]
      cases f c <;> simp [ih]

theorem opL_announce {sid : Nat} {uri : String} {k : LinkId} {c : Call} (h : Announces sid uri c) : opL sid k c = some .new := by
  rcases h with ⟨h1, h2⟩ | ⟨host, h2⟩ <;> subst h2 <;> simp_all [opL]

theorem opT_announce {sid : Nat} {uri : String} {k : TaskId} {c : Call} (h : Announces sid uri c) : opT sid k c = some .new := by
  rcases h with ⟨h1, h2⟩ | ⟨host, h2⟩ <;> subst h2 <;> simp_all [opT]

theorem opS_announce {sid : Nat} {uri : String} {c : Call} (h : Announces sid uri c) : opS sid c = some none := by
  rcases h with ⟨h1, h2⟩ | ⟨host, h2⟩ <;> subst h2 <;> simp_all [opS]

/-- The links that a trace leaves. -/
theorem direct_links (sid : Nat) (uri : String) (k : LinkId) (tr : List Ev) :
    ((tr.reverse.filterMap (callOf sid uri)).filterMap (opL sid k)).foldl KOp.direct none = liveLink tr k := by
  induction tr with
  | nil => rfl
  | cons ev tr ih =>
    rw [List.reverse_cons, List.filterMap_append, List.filterMap_append, List.foldl_append, ih]
    cases ev with
    | linkAdded l => by_cases h : l = k <;> simp [callOf, opL, liveLink, KOp.direct, h]
    | linkStatus l s => by_cases h : l = k <;> simp [callOf, opL, liveLink, KOp.direct, h]
    | linkRemoved l => by_cases h : l = k <;> simp [callOf, opL, liveLink, KOp.direct, h]
    | _ => rfl

/-- The status that a trace leaves. -/
theorem direct_status (sid : Nat) (uri : String) (tr : List Ev) :
    ((tr.reverse.filterMap (callOf sid uri)).filterMap (opS sid)).foldl dirS .notStarted = lastFlow tr := by
  induction tr with
  | nil => rfl
  | cons ev tr ih =>
    rw [List.reverse_cons, List.filterMap_append, List.filterMap_append, List.foldl_append, ih]
    cases ev with
    | flowStatus s => simp [callOf, opS, lastFlow, dirS]
    | _ => rfl

theorem liveTask_added {tr : List Ev} {k : TaskId} {o : Nat} (h : liveTask tr k = some o) : .taskAdded o k ∈ tr := by
  induction tr with
  | nil => simp [liveTask] at h
  | cons ev tr ih =>
    cases ev with
    | taskAdded p t =>
      simp only [liveTask] at h
      split at h
      · rename_i ht; subst ht; cases h; exact List.mem_cons_self ..
      · exact List.mem_cons_of_mem _ (ih h)
    | taskRemoved t =>
      simp only [liveTask] at h
      split at h
      · cases h
      · exact List.mem_cons_of_mem _ (ih h)
    | cleared => simp [liveTask] at h
    | _ => exact List.mem_cons_of_mem _ (ih h)

/-- The tasks that a trace without stale changes leaves. -/
theorem direct_tasks (sid : Nat) (uri : String) (k : TaskId) (tr : List Ev) (hs : NoStale tr)
    (hu : ∀ o t t', .taskAdded o t ∈ tr → .taskAdded o t' ∈ tr → t = t') :
    ((tr.reverse.filterMap (callOf sid uri)).filterMap (opT sid k)).foldl KOp.direct none = (liveTask tr k).map (lastStatus tr) := by
  induction tr with
  | nil => rfl
  | cons ev tr ih =>
    have hu' : ∀ o t t', .taskAdded o t ∈ tr → .taskAdded o t' ∈ tr → t = t' :=
      fun o t t' h1 h2 => hu o t t' (List.mem_cons_of_mem _ h1) (List.mem_cons_of_mem _ h2)
    rw [List.reverse_cons, List.filterMap_append, List.filterMap_append, List.foldl_append]
    cases ev with
    | taskAdded o t =>
      rw [ih hs hu']
      simp only [callOf, List.filterMap_cons, List.filterMap_nil, opT, liveTask]
      by_cases ht : t = k
      · subst ht; simp [KOp.direct, lastStatus]
      · simp only [ht, and_false, if_false, List.foldl_nil]
        cases hl : liveTask tr k with
        | none => rfl
        | some p =>
          have hp : o ≠ p := by
            intro hc; subst hc
            exact ht (hu o t k (List.mem_cons_self ..) (List.mem_cons_of_mem _ (liveTask_added hl)))
          simp [lastStatus, hp]
    | taskStatus o t s =>
      obtain ⟨h1, h2⟩ := hs
      rw [ih h2 hu']
      simp only [callOf, List.filterMap_cons, List.filterMap_nil, opT, liveTask]
      by_cases ht : t.id = k
      · subst ht; simp [KOp.direct, lastStatus, h1]
      · simp only [ht, and_false, if_false, List.foldl_nil]
        cases hl : liveTask tr k with
        | none => rfl
        | some p =>
          have hp : o ≠ p := by
            intro hc; subst hc
            exact ht (hu' o t.id k (liveTask_added h1) (liveTask_added hl))
          simp [lastStatus, hp]
    | taskRemoved t =>
      rw [ih hs hu']
      simp only [callOf, List.filterMap_cons, List.filterMap_nil, opT, liveTask]
      by_cases ht : t = k
      · subst ht; simp [KOp.direct]
      · simp only [ht, and_false, if_false, List.foldl_nil]
        cases hl : liveTask tr k <;> rfl
    | cleared => exact absurd hs (by simp [NoStale])
    | linkAdded l => rw [ih hs hu']; rfl
    | linkStatus l s => rw [ih hs hu']; rfl
    | linkRemoved l => rw [ih hs hu']; rfl
    | flowStatus s => rw [ih hs hu']; rfl
    | evalAct o t => rw [ih hs hu']; rfl
    | postAct o t => rw [ih hs hu']; rfl
    | ehStart => rw [ih hs hu']; rfl

/-! ### Settled groups -/

theorem settled_links {sid : Nat} {k : LinkId} {cs : List Call} (h : LinkSettled sid k cs) :
    KOp.Settled (cs.filterMap (opL sid k)) := by
  intro pre s post heq hd
  obtain ⟨l1, l2, h1, h2, h3⟩ := List.filterMap_eq_append_iff.1 heq
  obtain ⟨l3, c, l4, h4, h5, h6, h7⟩ := List.filterMap_eq_cons_iff.1 h3
  have hc : c = .linkAdded sid k s := by
    cases c <;> simp [opL] at h6
    obtain ⟨⟨rfl, rfl⟩, rfl⟩ := h6
    rfl
  subst hc
  have hr : .linkRemoved sid k ∈ l1 := by
    rw [← h2] at hd
    obtain ⟨c, hc, hop⟩ := List.mem_filterMap.1 hd
    cases c <;> simp [opL] at hop
    obtain ⟨rfl, rfl⟩ := hop
    exact hc
  rcases h (l1 ++ l3) s l4 (by rw [h1, h4, List.append_assoc]) (List.mem_append_left _ hr) with ⟨s', h8⟩ | h8
  · exact ⟨.upd s', by rw [← h7]; exact List.mem_filterMap.2 ⟨_, h8, by simp [opL]⟩, rfl⟩
  · exact ⟨.del, by rw [← h7]; exact List.mem_filterMap.2 ⟨_, h8, by simp [opL]⟩, rfl⟩

theorem settled_tasks {sid : Nat} {k : TaskId} {cs : List Call} (h : TaskSettled sid k cs) :
    KOp.Settled (cs.filterMap (opT sid k)) := by
  intro pre s post heq hd
  obtain ⟨l1, l2, h1, h2, h3⟩ := List.filterMap_eq_append_iff.1 heq
  obtain ⟨l3, c, l4, h4, h5, h6, h7⟩ := List.filterMap_eq_cons_iff.1 h3
  have hc : ∃ uri, c = .taskAdded sid uri k s := by
    cases c <;> simp [opT] at h6
    rename_i uri _ _
    obtain ⟨⟨rfl, rfl⟩, rfl⟩ := h6
    exact ⟨uri, rfl⟩
  obtain ⟨uri, hc⟩ := hc
  subst hc
  have hr : .taskRemoved sid k ∈ l1 := by
    rw [← h2] at hd
    obtain ⟨c, hc, hop⟩ := List.mem_filterMap.1 hd
    cases c <;> simp [opT] at hop
    obtain ⟨rfl, rfl⟩ := hop
    exact hc
  rcases h (l1 ++ l3) uri s l4 (by rw [h1, h4, List.append_assoc]) (List.mem_append_left _ hr) with ⟨uri', s', h8⟩ | h8
  · exact ⟨.upd s', by rw [← h7]; exact List.mem_filterMap.2 ⟨_, h8, by simp [opT]⟩, rfl⟩
  · exact ⟨.del, by rw [← h7]; exact List.mem_filterMap.2 ⟨_, h8, by simp [opT]⟩, rfl⟩

end Flow

namespace Flow
open Spec

/-! ### The work queue -/

/-- Calls about one work item. -/
inductive QOp
  | add (t : TaskId)
  | del (t : TaskId)

namespace QOp

def record (c : Option QueueChg) : QOp → Option QueueChg
  | .add t => some { c.getD {} with taskId := t }
  | .del t => some { c.getD {} with taskId := t, chg := .delete }

def direct (_ : Option TaskId) : QOp → Option TaskId
  | .add t => some t
  | .del _ => none

def isAdd : QOp → Bool
  | .add _ => true
  | .del _ => false

/-- No addition after a removal. -/
def Once (ops : List QOp) : Prop := ops.Pairwise (fun x y => x.isAdd = true ∨ y.isAdd = false)

theorem record_inv (v : Option TaskId) (rs : List QOp) (h : Once rs.reverse) :
    let c := rs.reverse.foldl record none
    (∀ q, c = some q → q.chg = .delete ∨ q.chg = .add) ∧
    (∀ q, c = some q → q.chg = .delete → ∃ x ∈ rs.reverse, x.isAdd = false) ∧ applyQueue v c = rs.reverse.foldl direct v := by
  induction rs with
  | nil => exact ⟨fun q hq => (nomatch hq), fun q hq => (nomatch hq), rfl⟩
  | cons x xs ih =>
    rw [List.reverse_cons] at h
    obtain ⟨h1, h2, h3⟩ := List.pairwise_append.1 h
    obtain ⟨i1, i2, i3⟩ := ih h1
    simp only [List.reverse_cons, List.foldl_append, List.foldl_cons, List.foldl_nil]
    generalize hc : List.foldl record none xs.reverse = c at i1 i2 i3
    generalize hd : List.foldl direct v xs.reverse = d at i3
    cases x with
    | del t =>
      refine ⟨fun q hq => ?_, fun q hq hdel => ⟨.del t, by simp, rfl⟩, ?_⟩
      · cases c <;> simp [record] at hq <;> subst hq <;> simp
      · cases c <;> simp [record, applyQueue, direct]
    | add t =>
      have hall : ∀ x ∈ xs.reverse, x.isAdd = true := by
        intro x hx
        rcases h3 x hx (.add t) (by simp) with h4 | h4
        · exact h4
        · cases h4
      have hnd : ∀ q, c = some q → q.chg ≠ .delete := by
        intro q hq hdel
        obtain ⟨x, hx, hxa⟩ := i2 q hq hdel
        rw [hall x hx] at hxa; cases hxa
      refine ⟨fun q hq => ?_, fun q hq hdel => ?_, ?_⟩
      · cases hc' : c with
        | none => rw [hc'] at hq; simp [record] at hq; subst hq; simp
        | some q' =>
          rw [hc'] at hq; simp [record] at hq; subst hq
          exact i1 q' hc'
      · exfalso
        cases hc' : c with
        | none => rw [hc'] at hq; simp [record] at hq; subst hq; simp at hdel
        | some q' =>
          rw [hc'] at hq; simp [record] at hq; subst hq
          exact hnd q' hc' hdel
      · cases hc' : c with
        | none => simp [record, applyQueue, direct]
        | some q' => simp [record, applyQueue, direct, hnd q' hc']

end QOp

/-- The calls about work item `id`. -/
def opQ (id : Nat) : Call → Option QOp
  | .itemAdded i t => if i = id then some (.add t) else none
  | .itemRemoved i t => if i = id then some (.del t) else none
  | _ => none

theorem queue_call (s : StepRec) (id : Nat) (c : Call) :
    (s.call c).queue.get? id = match opQ id c with
      | none => s.queue.get? id
      | some op => QOp.record (s.queue.get? id) op := by
  cases c with
  | itemAdded i t =>
    simp only [StepRec.call, StepRec.modQueue, opQ, AMap.get?_set]
    by_cases h : i = id
    · subst h; simp [QOp.record]
    · simp [h]
  | itemRemoved i t =>
    simp only [StepRec.call, StepRec.modQueue, opQ, AMap.get?_set]
    by_cases h : i = id
    · subst h; simp [QOp.record]
    · simp [h]
  | _ => rfl

theorem queue_calls (s : StepRec) (id : Nat) (cs : List Call) :
    (cs.foldl StepRec.call s).queue.get? id = (cs.filterMap (opQ id)).foldl QOp.record (s.queue.get? id) := by
  induction cs generalizing s with
  | nil => rfl
  | cons c cs ih =>
    rw [List.foldl_cons, ih, queue_call, List.filterMap_cons]
    cases opQ id c <;> rfl

theorem replay_queue {t : Tracker} (ht : t.cur.queue = []) (id : Nat) (v : Option TaskId) (css : List (List Call))
    (h : QOp.Once (css.flatten.filterMap (opQ id))) :
    (t.steps css).foldl (fun q s => applyQueue q (s.queue.get? id)) v = (css.flatten.filterMap (opQ id)).foldl QOp.direct v := by
  induction css generalizing t v with
  | nil => rfl
  | cons cs css ih =>
    simp only [Tracker.steps, List.foldl_cons, List.flatten_cons, List.filterMap_append, List.foldl_append] at h ⊢
    obtain ⟨h1, h2, _⟩ := List.pairwise_append.1 h
    rw [ih (by rfl) _ h2]
    congr 1
    show applyQueue v ((cs.foldl Tracker.call t).cur.queue.get? id) = _
    rw [foldl_cur, queue_calls, ht]
    have := (QOp.record_inv v (cs.filterMap (opQ id)).reverse (by rw [List.reverse_reverse]; exact h1)).2.2
    rw [List.reverse_reverse] at this
    exact this

theorem opQ_none {id : Nat} {c : Call} (h : ofQueue c = false) : opQ id c = none := by
  cases c <;> simp_all [ofQueue, opQ]

theorem filterMap_queue (id : Nat) (cs : List Call) : cs.filterMap (opQ id) = (cs.filter ofQueue).filterMap (opQ id) := by
  induction cs with
  | nil => rfl
  | cons c cs ih =>
    rw [List.filterMap_cons, List.filter_cons]
    cases hc : ofQueue c with
    | false => simp only [opQ_none hc]; simpa using ih
    | true =>
      simp only [if_true, List.filterMap_cons]
      cases opQ id c <;> simp [ih]

/-- The pending item with an identifier according to the log (newest first). -/
def lastItem (task : WorkItem → TaskId) : List QEv → Nat → Option TaskId
  | [], _ => none
  | .added w :: tr, id => if w.id = id then some (task w) else lastItem task tr id
  | .removed w :: tr, id => if w.id = id then none else lastItem task tr id

theorem direct_queue (e : Eng) (id : Nat) (log : List QEv) :
    ((log.reverse.map e.queueCall).filterMap (opQ id)).foldl QOp.direct none = lastItem e.itemTask log id := by
  induction log with
  | nil => rfl
  | cons ev log ih =>
    rw [List.reverse_cons, List.map_append, List.filterMap_append, List.foldl_append, ih]
    cases ev with
    | added w => by_cases h : w.id = id <;> simp [Eng.queueCall, opQ, lastItem, QOp.direct, h]
    | removed w => by_cases h : w.id = id <;> simp [Eng.queueCall, opQ, lastItem, QOp.direct, h]

theorem removed_added {log : List QEv} (h : QueueOK log) {w : WorkItem} (hr : .removed w ∈ log) : .added w ∈ log := by
  induction log with
  | nil => simp at hr
  | cons ev log ih =>
    cases ev with
    | added v =>
      rcases List.mem_cons.1 hr with h1 | h1
      · cases h1
      · exact List.mem_cons_of_mem _ (ih h.2 h1)
    | removed v =>
      rcases List.mem_cons.1 hr with h1 | h1
      · cases h1; exact List.mem_cons_of_mem _ h.1
      · exact List.mem_cons_of_mem _ (ih h.2.2 h1)

theorem added_unique {log : List QEv} (h : QueueOK log) {w v : WorkItem} (hw : .added w ∈ log) (hv : .added v ∈ log)
    (hid : w.id = v.id) : w = v := by
  induction log with
  | nil => simp at hw
  | cons ev log ih =>
    cases ev with
    | added u =>
      rcases List.mem_cons.1 hw with h1 | h1 <;> rcases List.mem_cons.1 hv with h2 | h2
      · cases h1; cases h2; rfl
      · cases h1; have := h.1 v h2; omega
      · cases h2; have := h.1 w h1; omega
      · exact ih h.2 h1 h2
    | removed u =>
      rcases List.mem_cons.1 hw with h1 | h1
      · cases h1
      · rcases List.mem_cons.1 hv with h2 | h2
        · cases h2
        · exact ih h.2.2 h1 h2

theorem lastItem_iff (task : WorkItem → TaskId) {log : List QEv} (h : QueueOK log) (id : Nat) (t : TaskId) :
    lastItem task log id = some t ↔ ∃ w, .added w ∈ log ∧ .removed w ∉ log ∧ w.id = id ∧ task w = t := by
  induction log with
  | nil => simp [lastItem]
  | cons ev log ih =>
    cases ev with
    | added w =>
      simp only [lastItem]
      have hnr : .removed w ∉ log := fun hc => by have := h.1 w (removed_added h.2 hc); omega
      split
      · rename_i hid
        constructor
        · intro ht
          simp at ht
          exact ⟨w, List.mem_cons_self .., by simp [hnr], hid, ht⟩
        · rintro ⟨v, h1, _, h3, h4⟩
          rcases List.mem_cons.1 h1 with h5 | h5
          · cases h5; rw [h4]
          · have := h.1 v h5; omega
      · rename_i hid
        rw [ih h.2]
        constructor
        · rintro ⟨v, h1, h2, h3, h4⟩
          exact ⟨v, List.mem_cons_of_mem _ h1, by simp [h2], h3, h4⟩
        · rintro ⟨v, h1, h2, h3, h4⟩
          rcases List.mem_cons.1 h1 with h5 | h5
          · cases h5; exact absurd h3 hid
          · exact ⟨v, h5, fun hc => h2 (List.mem_cons_of_mem _ hc), h3, h4⟩
    | removed w =>
      simp only [lastItem]
      split
      · rename_i hid
        constructor
        · intro hc; cases hc
        · rintro ⟨v, h1, h2, h3, h4⟩
          rcases List.mem_cons.1 h1 with h5 | h5
          · cases h5
          · have := added_unique h.2.2 h5 h.1 (h3.trans hid.symm)
            subst this
            exact absurd (List.mem_cons_self ..) h2
      · rename_i hid
        rw [ih h.2.2]
        constructor
        · rintro ⟨v, h1, h2, h3, h4⟩
          refine ⟨v, List.mem_cons_of_mem _ h1, fun hc => ?_, h3, h4⟩
          rcases List.mem_cons.1 hc with h5 | h5
          · cases h5; exact hid h3
          · exact h2 h5
        · rintro ⟨v, h1, h2, h3, h4⟩
          rcases List.mem_cons.1 h1 with h5 | h5
          · cases h5
          · exact ⟨v, h5, fun hc => h2 (List.mem_cons_of_mem _ hc), h3, h4⟩

/-- An item is not added again after its removal. -/
theorem once_queue (e : Eng) (id : Nat) {log : List QEv} (h : QueueOK log) :
    QOp.Once ((log.reverse.map e.queueCall).filterMap (opQ id)) := by
  induction log with
  | nil => exact List.Pairwise.nil
  | cons ev log ih =>
    rw [List.reverse_cons, List.map_append, List.filterMap_append]
    cases ev with
    | removed w =>
      refine List.pairwise_append.2 ⟨ih h.2.2, ?_, ?_⟩
      · by_cases hid : w.id = id <;> simp [Eng.queueCall, opQ, hid]
      · intro x _ y hy
        by_cases hid : w.id = id <;> simp [Eng.queueCall, opQ, hid] at hy
        subst hy; exact Or.inr rfl
    | added w =>
      refine List.pairwise_append.2 ⟨ih h.2, ?_, ?_⟩
      · by_cases hid : w.id = id <;> simp [Eng.queueCall, opQ, hid]
      · intro x hx y hy
        by_cases hid : w.id = id
        · exfalso
          obtain ⟨c, hc, hop⟩ := List.mem_filterMap.1 hx
          obtain ⟨q, hq, rfl⟩ := List.mem_map.1 hc
          rw [List.mem_reverse] at hq
          have : ∃ v, .added v ∈ log ∧ v.id = id := by
            cases q with
            | added v =>
              simp only [Eng.queueCall, opQ] at hop
              split at hop
              · exact ⟨v, hq, by assumption⟩
              · cases hop
            | removed v =>
              simp only [Eng.queueCall, opQ] at hop
              split at hop
              · exact ⟨v, removed_added h.2 hq, by assumption⟩
              · cases hop
          obtain ⟨v, hv, hvid⟩ := this
          have := h.1 v hv
          omega
        · simp [Eng.queueCall, opQ, hid] at hy

end Flow
