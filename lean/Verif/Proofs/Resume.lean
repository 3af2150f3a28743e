import Verif.Spec.Resume
import Verif.Spec.Cover
import Verif.Proofs.Bare

/-
Two runs whose states differ only in the identities of task objects, identifiers and history take corresponding steps.
-/

namespace Flow

open Spec

theorem since_cons {α : Type} {p : List α × List α} {a b : List α} (x : α) (h : Since p a b) : Since p (x :: a) (x :: b) := by
  obtain ⟨X, h1, h2⟩ := h
  exact ⟨x :: X, by rw [h1]; rfl, by rw [h2]; rfl⟩

theorem map_eraseIdx {α β : Type} (g : α → β) (l : List α) (k : Nat) : (l.eraseIdx k).map g = (l.map g).eraseIdx k := by
  induction l generalizing k with
  | nil => rfl
  | cons a l ih =>
    cases k with
    | zero => rfl
    | succ k => show g a :: (l.eraseIdx k).map g = g a :: (l.map g).eraseIdx k; rw [ih]

/-- Where the histories of the two runs begin. -/
structure Base where
  trace : List Ev × List Ev
  posted : List Post × List Post
  replies : List (AMap String Val × Option Err) × List (AMap String Val × Option Err)

/-- `r` maps the task objects of `J` to those of `I`. -/
structure SimI (B : Base) (N : Nat) (r : Nat → Nat) (I J : Inst) : Prop where
  len : J.objs.length = N
  plain : NoSubflows J.defn
  defn : I.defn = J.defn
  handling : I.handling = J.handling
  status : I.status = J.status
  force : I.force = J.force
  returnData : I.returnData = J.returnData
  returnError : I.returnError = J.returnError
  attrs : I.attrs = J.attrs
  links : I.links = J.links
  inj : ∀ a b, a < N → b < N → r a = r b → a = b
  objs : ∀ b, b < N → I.objs[r b]? = J.objs[b]?
  tasks : I.tasks = J.tasks.map (fun p => (p.1, r p.2))
  bound : ∀ p ∈ J.tasks, p.2 < N
  trace : Since B.trace (I.trace.map Ev.name) (J.trace.map Ev.name)
  posted : Since B.posted (I.posted.map Post.name) (J.posted.map Post.name)

namespace SimI

variable {B : Base} {N : Nat} {r : Nat → Nat} {I J : Inst}

theorem obj (h : SimI B N r I J) {b : Nat} (hb : b < N) : ∃ ob, I.objs[r b]? = some ob ∧ J.objs[b]? = some ob := by
  have : b < J.objs.length := by rw [h.len]; exact hb
  exact ⟨J.objs[b], by rw [h.objs b hb, List.getElem?_eq_getElem this], List.getElem?_eq_getElem this⟩

theorem modO (h : SimI B N r I J) {b : Nat} (hb : b < N) (g : Obj → Obj) : SimI B N r (I.modO (r b) g) (J.modO b g) := by
  refine { h with len := ?_, objs := fun a ha => ?_ }
  · show (J.objs.modify b g).length = N
    rw [List.length_modify, h.len]
  · show (I.objs.modify (r b) g)[r a]? = (J.objs.modify b g)[a]?
    rw [List.getElem?_modify, List.getElem?_modify, h.objs a ha]
    by_cases hab : b = a
    · subst hab; simp
    · have : r b ≠ r a := fun hc => hab (h.inj _ _ hb ha hc)
      simp [hab, this]

theorem ev (h : SimI B N r I J) (x y : Ev) (hxy : x.name = y.name) : SimI B N r { I with trace := x :: I.trace } { J with trace := y :: J.trace } := by
  refine { h with trace := ?_ }
  show Since B.trace (x.name :: I.trace.map Ev.name) (y.name :: J.trace.map Ev.name)
  rw [hxy]; exact since_cons _ h.trace

theorem post (h : SimI B N r I J) (x y : Post) (hxy : x.name = y.name) :
    SimI B N r { I with posted := x :: I.posted } { J with posted := y :: J.posted } := by
  refine { h with posted := ?_ }
  show Since B.posted (x.name :: I.posted.map Post.name) (y.name :: J.posted.map Post.name)
  rw [hxy]; exact since_cons _ h.posted

theorem setTaskStatus (h : SimI B N r I J) {b : Nat} (hb : b < N) (s : TaskStatus) :
    SimI B N r (I.setTaskStatus (r b) s) (J.setTaskStatus b s) := by
  obtain ⟨ob, h1, h2⟩ := h.obj hb
  unfold Inst.setTaskStatus
  rw [h1, h2]
  exact (((h.modO hb (fun x => { x with status := s })).ev (.taskStatus (r b) ob.task s) (.taskStatus b ob.task s) rfl).post
    (.task (r b) ob.task s (if s = .failed then ob.returnError else none)) (.task b ob.task s (if s = .failed then ob.returnError else none)) rfl)

theorem setFlowStatus (h : SimI B N r I J) (s : FlowStatus) : SimI B N r (I.setFlowStatus s) (J.setFlowStatus s) := by
  unfold Inst.setFlowStatus
  have hr := h.returnError
  exact { ((h.ev (.flowStatus s) (.flowStatus s) rfl).post (.flow s (if s = .failed then I.returnError else none))
    (.flow s (if s = .failed then J.returnError else none)) (by rw [hr])) with status := rfl }

theorem setValue (h : SimI B N r I J) (k : String) (v : Val) : SimI B N r (I.setValue k v) (J.setValue k v) :=
  { h with attrs := by show AMap.set _ _ _ = AMap.set _ _ _; rw [h.attrs] }

theorem setAttrs (h : SimI B N r I J) (m : AMap String Val) :
    SimI B N r { I with attrs := I.attrs.update m } { J with attrs := J.attrs.update m } :=
  { h with attrs := by show AMap.update _ _ = AMap.update _ _; rw [h.attrs] }

theorem findLink (h : SimI B N r I J) (l : LinkId) : SimI B N r (I.findLink l) (J.findLink l) := by
  unfold Inst.findLink
  rw [h.links]
  split
  · exact h
  · exact { (h.ev (.linkAdded l) (.linkAdded l) rfl) with links := rfl }

theorem findLinks (h : SimI B N r I J) (ls : List LinkDef) : SimI B N r (I.findLinks ls) (J.findLinks ls) := by
  induction ls generalizing I J with
  | nil => exact h
  | cons l ls ih => exact ih (h.findLink l.id)

theorem setLink (h : SimI B N r I J) (l : LinkId) (s : LinkStatus) : SimI B N r (I.setLink l s) (J.setLink l s) := by
  unfold Inst.setLink
  rw [h.links]
  exact { (h.ev (.linkStatus l s) (.linkStatus l s) rfl) with links := rfl }

theorem applyRows (h : SimI B N r I J) (rows : List (LinkDef × LinkStatus × Nat)) : SimI B N r (I.applyRows rows) (J.applyRows rows) := by
  induction rows generalizing I J with
  | nil => exact h
  | cons x rows ih => exact ih (h.setLink x.1.id x.2.1)

theorem linkSt (h : SimI B N r I J) (l : LinkId) : I.linkSt l = J.linkSt l := by
  unfold Inst.linkSt; rw [h.links]

theorem get?_map (m : AMap TaskId Nat) (k : TaskId) : AMap.get? (m.map (fun p => (p.1, r p.2))) k = (AMap.get? m k).map r := by
  induction m with
  | nil => rfl
  | cons p m ih =>
    show (if p.1 = k then some (r p.2) else AMap.get? _ k) = Option.map r (if p.1 = k then some p.2 else AMap.get? m k)
    split
    · rfl
    · exact ih

theorem set_map (m : AMap TaskId Nat) (k : TaskId) (v : Nat) :
    AMap.set (m.map (fun p => (p.1, r p.2))) k (r v) = (AMap.set m k v).map (fun p => (p.1, r p.2)) := by
  induction m with
  | nil => rfl
  | cons p m ih =>
    show (if p.1 = k then (k, r v) :: _ else (p.1, r p.2) :: AMap.set _ k (r v)) = List.map _ (if p.1 = k then (k, v) :: m else p :: AMap.set m k v)
    split
    · rfl
    · rw [ih]; rfl

theorem del_map (m : AMap TaskId Nat) (k : TaskId) :
    AMap.del (m.map (fun p => (p.1, r p.2))) k = (AMap.del m k).map (fun p => (p.1, r p.2)) := by
  unfold AMap.del
  rw [List.filter_map]
  rfl

theorem mem_set {m : AMap TaskId Nat} {k : TaskId} {v : Nat} {p : TaskId × Nat} (h : p ∈ AMap.set m k v) : p ∈ m ∨ p = (k, v) := by
  induction m with
  | nil => exact .inr (List.mem_singleton.1 h)
  | cons q m ih =>
    have h : p ∈ (if q.1 = k then (k, v) :: m else q :: AMap.set m k v) := h
    split at h
    · rcases List.mem_cons.1 h with h | h
      · exact .inr h
      · exact .inl (List.mem_cons_of_mem _ h)
    · rcases List.mem_cons.1 h with h | h
      · exact .inl (h ▸ List.mem_cons_self ..)
      · rcases ih h with h | h
        · exact .inl (List.mem_cons_of_mem _ h)
        · exact .inr h

/-- A later correspondence extends an earlier one. -/
def Grows (N N' : Nat) (r r' : Nat → Nat) : Prop := N ≤ N' ∧ ∀ b, b < N → r' b = r b

theorem Grows.refl (N : Nat) (r : Nat → Nat) : Grows N N r r := ⟨Nat.le_refl _, fun _ _ => rfl⟩

theorem Grows.trans {N N' N'' : Nat} {r r' r'' : Nat → Nat} (h : Grows N N' r r') (g : Grows N' N'' r' r'') : Grows N N'' r r'' :=
  ⟨Nat.le_trans h.1 g.1, fun b hb => (g.2 b (Nat.lt_of_lt_of_le hb h.1)).trans (h.2 b hb)⟩

theorem findOrCreateTask (h : SimI B N r I J) (t : TaskRef) : ∃ N' r', Grows N N' r r' ∧
    SimI B N' r' (I.findOrCreateTask t).1 (J.findOrCreateTask t).1 ∧ (J.findOrCreateTask t).2 < N' ∧
    (I.findOrCreateTask t).2 = r' (J.findOrCreateTask t).2 := by
  unfold Inst.findOrCreateTask
  have hg : I.tasks.get? t.id = (J.tasks.get? t.id).map r := by rw [h.tasks]; exact get?_map _ _
  rw [hg]
  cases hJ : J.tasks.get? t.id with
  | some o => exact ⟨N, r, .refl _ _, h, h.bound _ (AMap.mem_of_get? hJ), rfl⟩
  | none =>
    refine ⟨N + 1, fun b => if b < N then r b else I.objs.length, ⟨Nat.le_succ _, fun b hb => if_pos hb⟩, ?_, ?_, ?_⟩
    · have hb : ∀ b, b < N → r b < I.objs.length := by
        intro b hb
        obtain ⟨ob, h1, _⟩ := h.obj hb
        exact (List.getElem?_eq_some_iff.1 h1).1
      refine { (h.ev (.taskAdded I.objs.length t.id) (.taskAdded J.objs.length t.id) rfl) with len := ?_, inj := ?_, objs := ?_, tasks := ?_, bound := ?_ }
      · show (J.objs ++ [_]).length = N + 1
        rw [List.length_append, h.len]; rfl
      · intro a b ha hb' hab
        by_cases h1 : a < N <;> by_cases h2 : b < N
        · rw [if_pos h1, if_pos h2] at hab; exact h.inj _ _ h1 h2 hab
        · rw [if_pos h1, if_neg h2] at hab; have := hb a h1; omega
        · rw [if_neg h1, if_pos h2] at hab; have := hb b h2; omega
        · omega
      · intro b hb'
        show (I.objs ++ [_])[if b < N then r b else I.objs.length]? = (J.objs ++ [_])[b]?
        by_cases h1 : b < N
        · rw [if_pos h1, List.getElem?_append_left (hb b h1), List.getElem?_append_left (by rw [h.len]; exact h1), h.objs b h1]
        · have : b = J.objs.length := by rw [h.len]; omega
          rw [if_neg h1, this, List.getElem?_concat_length, List.getElem?_concat_length]
      · show AMap.set I.tasks t.id I.objs.length = List.map _ (AMap.set J.tasks t.id J.objs.length)
        have h1 : I.objs.length = (fun b => if b < N then r b else I.objs.length) J.objs.length := by
          show _ = if J.objs.length < N then _ else _
          rw [if_neg (by rw [h.len]; omega)]
        have h2 : I.tasks = J.tasks.map (fun p => (p.1, (fun b => if b < N then r b else I.objs.length) p.2)) := by
          rw [h.tasks]
          apply List.map_congr_left
          intro p hp
          show (p.1, r p.2) = (p.1, if p.2 < N then r p.2 else _)
          rw [if_pos (h.bound p hp)]
        have h3 := set_map (r := fun b => if b < N then r b else I.objs.length) J.tasks t.id J.objs.length
        have h4 : (if J.objs.length < N then r J.objs.length else I.objs.length) = I.objs.length := h1.symm
        have h5 : J.tasks.map (fun p => (p.1, if p.2 < N then r p.2 else I.objs.length)) = I.tasks := h2.symm
        have h3 : AMap.set (J.tasks.map (fun p => (p.1, if p.2 < N then r p.2 else I.objs.length))) t.id
          (if J.objs.length < N then r J.objs.length else I.objs.length) = _ := h3
        rw [h4, h5] at h3
        exact h3
      · intro p hp
        have hp : p ∈ AMap.set J.tasks t.id J.objs.length := hp
        rcases mem_set hp with hp | hp
        · exact Nat.lt_succ_of_lt (h.bound p hp)
        · rw [hp]; show J.objs.length < N + 1; rw [h.len]; omega
    · show J.objs.length < N + 1; rw [h.len]; omega
    · show I.objs.length = if J.objs.length < N then _ else _
      rw [if_neg (by rw [h.len]; omega)]

theorem enterTask (h : SimI B N r I J) (t : TaskRef) : ∃ N' r', Grows N N' r r' ∧
    SimI B N' r' (I.enterTask t).1 (J.enterTask t).1 ∧ (J.enterTask t).2.1 < N' ∧ (I.enterTask t).2.1 = r' (J.enterTask t).2.1 ∧
    (I.enterTask t).2.2 = (J.enterTask t).2.2 := by
  obtain ⟨N', r', hg, h1, h2, h3⟩ := h.findOrCreateTask t
  refine ⟨N', r', hg, ?_⟩
  obtain ⟨ob, h4, h5⟩ := h1.obj h2
  rw [← h3] at h4
  unfold Inst.enterTask
  dsimp only
  rw [h4, h5]
  dsimp only
  rw [h1.defn]
  have h6 := (h1.setTaskStatus h2 .entered).findLinks ((J.findOrCreateTask t).1.defn.fromLinks ob.task)
  rw [← h3] at h6
  have h7 : (fun l : LinkDef => (((I.findOrCreateTask t).1.setTaskStatus (I.findOrCreateTask t).2 .entered).findLinks
      ((J.findOrCreateTask t).1.defn.fromLinks ob.task)).linkSt l.id) = fun l => (((J.findOrCreateTask t).1.setTaskStatus (J.findOrCreateTask t).2 .entered).findLinks
      ((J.findOrCreateTask t).1.defn.fromLinks ob.task)).linkSt l.id := funext fun l => h6.linkSt l.id
  rw [h7]
  split
  · exact ⟨h6, h2, h3, rfl⟩
  · have := h6.setTaskStatus h2 .ready; rw [← h3] at this; exact ⟨this, h2, h3, rfl⟩
  · have := h6.setTaskStatus h2 .skipped; rw [← h3] at this; exact ⟨this, h2, h3, rfl⟩

theorem allDone (h : SimI B N r I J) : I.allDone = J.allDone := by
  unfold Inst.allDone
  rw [h.tasks, List.all_map]
  have hb := h.bound
  revert hb
  generalize J.tasks = l
  intro hb
  induction l with
  | nil => rfl
  | cons p l ih =>
    rw [List.all_cons, List.all_cons, ih (fun q hq => hb q (List.mem_cons_of_mem _ hq))]
    congr 1
    show (match I.objs[r p.2]? with | some ob => _ | none => true) = _
    rw [h.objs p.2 (hb p (List.mem_cons_self ..))]
    rfl

theorem dropLinks (h : SimI B N r I J) (ls : List LinkDef) :
    SimI B N r (ls.foldl (fun J l => { J with links := J.links.del l.id, trace := .linkRemoved l.id :: J.trace }) I)
      (ls.foldl (fun J l => { J with links := J.links.del l.id, trace := .linkRemoved l.id :: J.trace }) J) := by
  induction ls generalizing I J with
  | nil => exact h
  | cons l ls ih =>
    refine ih (I := { I with links := I.links.del l.id, trace := .linkRemoved l.id :: I.trace })
      (J := { J with links := J.links.del l.id, trace := .linkRemoved l.id :: J.trace }) { (h.ev (.linkRemoved l.id) (.linkRemoved l.id) rfl) with links := ?_ }
    show AMap.del _ _ = AMap.del _ _
    rw [h.links]

theorem release (h : SimI B N r I J) (t : TaskRef) : SimI B N r (I.release t) (J.release t) := by
  unfold Inst.release
  have hd : I.defn.fromLinks t = J.defn.fromLinks t := by rw [h.defn]
  rw [hd]
  refine SimI.dropLinks ?_ _
  refine { (h.ev (.taskRemoved t.id) (.taskRemoved t.id) rfl) with tasks := ?_, bound := fun p hp => h.bound p ((List.mem_filter.1 hp).1) }
  show AMap.del I.tasks t.id = List.map _ (AMap.del J.tasks t.id)
  rw [h.tasks]; exact del_map _ _

theorem clearTasks (h : SimI B N r I J) : SimI B N r I.clearTasks J.clearTasks :=
  { (h.ev .cleared .cleared rfl) with tasks := rfl, bound := fun _ hp => nomatch hp }

theorem skipTask (h : SimI B N r I J) {b : Nat} (hb : b < N) (t : TaskRef) :
    SimI B N r (I.skipTask (r b) t).1 (J.skipTask b t).1 ∧ (I.skipTask (r b) t).2 = (J.skipTask b t).2 := by
  unfold Inst.skipTask
  rw [h.defn]
  exact ⟨((h.findLinks _).setTaskStatus hb _).applyRows _, rfl⟩

theorem doneTask (h : SimI B N r I J) {b : Nat} (hb : b < N) (prio : Bool) (ev : LinkDef → ExprOut) (t : TaskRef) :
    SimI B N r (Inst.doneTask prio ev I (r b) t).1 (Inst.doneTask prio ev J b t).1 ∧
      (Inst.doneTask prio ev I (r b) t).2 = (Inst.doneTask prio ev J b t).2 := by
  unfold Inst.doneTask
  rw [h.defn]
  dsimp only
  split
  · exact ⟨((h.findLinks _).setTaskStatus hb _).applyRows _, rfl⟩
  · exact ⟨((h.findLinks _).setTaskStatus hb _).applyRows _, rfl⟩

theorem errorTask (h : SimI B N r I J) {b : Nat} (hb : b < N) (t : TaskRef) :
    SimI B N r (I.errorTask (r b) t).1 (J.errorTask b t).1 ∧ (I.errorTask (r b) t).2 = (J.errorTask b t).2 := by
  unfold Inst.errorTask
  rw [h.defn]
  dsimp only
  split
  · exact ⟨(h.setTaskStatus hb _).findLinks _, rfl⟩
  · exact ⟨((h.setTaskStatus hb _).findLinks _).applyRows _, rfl⟩

end SimI

/-- Corresponding states of two runs that consist of one flow instance each. -/
structure SimE (B : Base) (N : Nat) (r : Nat → Nat) (e f : Eng) : Prop where
  insts : ∃ I J, e.insts = [I] ∧ f.insts = [J] ∧ SimI B N r I J
  queue : e.queue.map (fun w => (w.inst, w.obj)) = f.queue.map (fun w => (w.inst, r w.obj))
  items : ∀ w ∈ f.queue, w.inst = 0 ∧ w.obj < N
  stack : e.stack = f.stack
  cur : f.stack ≠ [] → e.cur = 0 ∧ f.cur = 0
  replies : Since B.replies e.replies f.replies

/-- Corresponding states and equal results. -/
def SimR (B : Base) (N : Nat) (r : Nat → Nat) {α : Type} (x y : Eng × α) : Prop := SimE B N r x.1 y.1 ∧ x.2 = y.2

namespace SimE

variable {B : Base} {N : Nat} {r : Nat → Nat} {e f : Eng} {env : Env}

theorem inst0 (h : SimE B N r e f) : ∃ I J, e.insts[0]? = some I ∧ f.insts[0]? = some J ∧ SimI B N r I J := by
  obtain ⟨I, J, h1, h2, h3⟩ := h.insts
  exact ⟨I, J, by rw [h1]; rfl, by rw [h2]; rfl, h3⟩

theorem modI (h : SimE B N r e f) {g g' : Inst → Inst} (hg : ∀ I J, SimI B N r I J → SimI B N r (g I) (g' J)) :
    SimE B N r (e.modI 0 g) (f.modI 0 g') := by
  obtain ⟨I, J, h1, h2, h3⟩ := h.insts
  exact { h with insts := ⟨g I, g' J, Eng.modI_one h1 g, Eng.modI_one h2 g', hg I J h3⟩ }

theorem obj (h : SimE B N r e f) {b : Nat} (hb : b < N) : ∃ ob, e.obj? 0 (r b) = some ob ∧ f.obj? 0 b = some ob := by
  obtain ⟨I, J, h1, h2, h3⟩ := h.inst0
  obtain ⟨ob, h4, h5⟩ := h3.obj hb
  exact ⟨ob, by unfold Eng.obj?; rw [h1]; exact h4, by unfold Eng.obj?; rw [h2]; exact h5⟩

theorem objEq (h : SimE B N r e f) {b : Nat} (hb : b < N) : e.obj? 0 (r b) = f.obj? 0 b := by
  obtain ⟨ob, h1, h2⟩ := h.obj hb
  rw [h1, h2]

theorem taskDef (h : SimE B N r e f) (t : TaskRef) : e.taskDef? 0 t = f.taskDef? 0 t := by
  obtain ⟨I, J, h1, h2, h3⟩ := h.inst0
  unfold Eng.taskDef?
  rw [h1, h2]
  dsimp only
  rw [h3.defn]

theorem alikeFlow (h : SimE B N r e f) : AlikeFlow e f := by
  obtain ⟨I, J, h1, h2, h3⟩ := h.inst0
  exact ⟨I, J, h1, h2, h3.attrs, h3.defn⟩

theorem alike (h : SimE B N r e f) {b : Nat} (hb : b < N) : Alike e f (r b) b := by
  obtain ⟨I, J, h1, h2, h3⟩ := h.inst0
  obtain ⟨ob, h4, h5⟩ := h3.obj hb
  exact ⟨I, J, ob, h1, h2, h3.attrs, h3.defn, h4, h5⟩

theorem modO (h : SimE B N r e f) {b : Nat} (hb : b < N) (g : Obj → Obj) :
    SimE B N r (e.modI 0 (fun I => I.modO (r b) g)) (f.modI 0 (fun J => J.modO b g)) := h.modI fun _ _ k => k.modO hb g

theorem schedule (h : SimE B N r e f) {b : Nat} (hb : b < N) : SimE B N r (e.schedule 0 (r b)) (f.schedule 0 b) := by
  refine { h with queue := ?_, items := ?_ }
  · show List.map _ (e.queue ++ [_]) = List.map _ (f.queue ++ [_])
    rw [List.map_append, List.map_append, h.queue]; rfl
  · intro w hw
    rcases List.mem_append.1 hw with hw | hw
    · exact h.items w hw
    · cases List.mem_singleton.1 hw; exact ⟨rfl, hb⟩

theorem icpOut (h : SimE B N r e f) (ob : Obj) : Eng.icpOut env e 0 ob = Eng.icpOut env f 0 ob := by
  obtain ⟨I, J, h1, h2, h3⟩ := h.inst0
  unfold Eng.icpOut
  rw [h1, h2]
  dsimp only
  rw [h3.defn]

theorem inputInterceptor (h : SimE B N r e f) {b : Nat} (hb : b < N) (ob : Obj) :
    SimR B N r (Eng.inputInterceptor env e 0 (r b) ob) (Eng.inputInterceptor env f 0 b ob) := by
  unfold Eng.inputInterceptor
  split
  · exact ⟨h, rfl⟩
  · exact ⟨h.modO hb _, rfl⟩

theorem applyActOut (h : SimE B N r e f) {b : Nat} (hb : b < N) (a : ActOut) : SimE B N r (e.applyActOut 0 (r b) a) (f.applyActOut 0 b a) := by
  unfold Eng.applyActOut
  dsimp only
  have h1 : SimE B N r (e.modI 0 (fun I =>
    let I1 := { I with attrs := I.attrs.update a.sets }
    let I2 := match a.outputs with
      | none => I1
      | some m => I1.modO (r b) (fun x => { x with outputs := m })
    match a.ret with
    | none => I2
    | some (d, err) => { I2 with force := true, returnData := d, returnError := err }))
    (f.modI 0 (fun I =>
    let I1 := { I with attrs := I.attrs.update a.sets }
    let I2 := match a.outputs with
      | none => I1
      | some m => I1.modO b (fun x => { x with outputs := m })
    match a.ret with
    | none => I2
    | some (d, err) => { I2 with force := true, returnData := d, returnError := err })) := by
    refine h.modI fun I J k => ?_
    dsimp only
    have k1 := k.setAttrs a.sets
    cases a.outputs with
    | none =>
      cases a.ret with
      | none => exact k1
      | some p => exact { k1 with force := rfl, returnData := rfl, returnError := rfl }
    | some m =>
      have k2 := k1.modO hb (fun x => { x with outputs := m })
      cases a.ret with
      | none => exact k2
      | some p => exact { k2 with force := rfl, returnData := rfl, returnError := rfl }
  cases a.reply with
  | none => exact h1
  | some p =>
    dsimp only
    rw [if_pos rfl, if_pos rfl]
    have h2 := h1.modI (g := fun I => { I with returnData := some p.1 }) (g' := fun I => { I with returnData := some p.1 })
      fun I J k => { k with returnData := rfl }
    exact { h2 with replies := since_cons _ h1.replies }

theorem callActivity (E : DataOnly env) (h : SimE B N r e f) {b : Nat} (hb : b < N) (ob : Obj) (td : TaskDef) (hs : ∀ uri, td.act ≠ .subflow uri) :
    SimR B N r (Eng.callActivity env e 0 (r b) ob td) (Eng.callActivity env f 0 b ob td) := by
  unfold Eng.callActivity
  dsimp only
  have h1 : SimE B N r (e.modI 0 (fun I => { I with trace := .evalAct (r b) ob.task :: I.trace })) (f.modI 0 (fun I => { I with trace := .evalAct b ob.task :: I.trace })) :=
    h.modI fun I J k => k.ev _ _ rfl
  rw [E.act _ _ _ _ (h1.alike hb)]
  split
  · rename_i uri hu; exact absurd hu (hs uri)
  · have h2 := h1.applyActOut hb (env.act (f.modI 0 (fun I => { I with trace := .evalAct b ob.task :: I.trace })) 0 b)
    split <;> exact ⟨h2, rfl⟩

theorem accumulate (h : SimE B N r e f) {b : Nat} (hb : b < N) (t : TaskId) : SimR B N r (e.accumulate 0 (r b) t) (f.accumulate 0 b t) := by
  obtain ⟨I, J, h1, h2, h3⟩ := h.inst0
  unfold Eng.accumulate
  rw [h1, h2]
  dsimp only
  rw [h3.objs b hb, h3.attrs]
  split
  · exact ⟨h.modI fun _ _ k => k.setValue _ _, rfl⟩
  · exact ⟨h.modI fun _ _ k => k.setValue _ _, rfl⟩
  · exact ⟨h, rfl⟩

theorem outputMapper (E : DataOnly env) (h : SimE B N r e f) {b : Nat} (hb : b < N) (name : String) :
    SimR B N r (Eng.outputMapper env e 0 (r b) name) (Eng.outputMapper env f 0 b name) := by
  unfold Eng.outputMapper
  rw [E.outMap _ _ _ _ (h.alike hb)]
  split
  · exact ⟨h, rfl⟩
  · exact ⟨h.modI fun _ _ k => k.setAttrs _, rfl⟩

theorem outputInterceptor (h : SimE B N r e f) {b : Nat} (hb : b < N) (ob : Obj) (td : TaskDef) :
    SimR B N r (Eng.outputInterceptor env e 0 (r b) ob td) (Eng.outputInterceptor env f 0 b ob td) := by
  unfold Eng.outputInterceptor
  rw [h.icpOut ob]
  split
  · exact ⟨h, rfl⟩
  · split
    · exact ⟨h, rfl⟩
    · split
      · exact ⟨h, rfl⟩
      · split
        · exact ⟨h, rfl⟩
        · exact ⟨h, rfl⟩
      · split
        · exact ⟨h, rfl⟩
        · exact ⟨h.modO hb _, rfl⟩

theorem andThen {x y : Eng × Option Err} (h : SimR B N r x y) {k k' : Eng → Eng × Option Err}
    (hk : ∀ e f, SimE B N r e f → SimR B N r (k e) (k' f)) : SimR B N r (Eng.andThen x k) (Eng.andThen y k') := by
  obtain ⟨x1, x2⟩ := x
  obtain ⟨y1, y2⟩ := y
  obtain ⟨h1, h2⟩ := h
  have h2 : x2 = y2 := h2
  subst h2
  cases x2 with
  | none => exact hk _ _ h1
  | some err => exact ⟨h1, rfl⟩

theorem storeOutputs (E : DataOnly env) (h : SimE B N r e f) {b : Nat} (hb : b < N) (t : TaskId) (td : TaskDef) :
    SimR B N r (Eng.storeOutputs env e 0 (r b) t td) (Eng.storeOutputs env f 0 b t td) := by
  unfold Eng.storeOutputs
  split
  · refine andThen (h.accumulate hb t) fun e' f' h' => ?_
    split
    · exact h'.outputMapper E hb _
    · exact ⟨h', rfl⟩
  · exact h.outputMapper E hb _

theorem assertion (h : SimE B N r e f) (ob : Obj) : SimR B N r (Eng.assertion env e 0 ob) (Eng.assertion env f 0 ob) := by
  unfold Eng.assertion
  rw [h.icpOut ob]
  split
  · split
    · exact ⟨h, rfl⟩
    · exact ⟨h, rfl⟩
  · exact ⟨h, rfl⟩

theorem doneOrErr {x y : Eng × Option Err} (h : SimR B N r x y) : SimR B N r (Eng.doneOrErr x) (Eng.doneOrErr y) := by
  obtain ⟨x1, x2⟩ := x
  obtain ⟨y1, y2⟩ := y
  obtain ⟨h1, h2⟩ := h
  have h2 : x2 = y2 := h2
  subst h2
  cases x2 <;> exact ⟨h1, rfl⟩

theorem afterDone (E : DataOnly env) (h : SimE B N r e f) {b : Nat} (hb : b < N) (ob : Obj) (td : TaskDef) :
    SimR B N r (Eng.afterDone env e 0 (r b) ob td) (Eng.afterDone env f 0 b ob td) := by
  unfold Eng.afterDone
  rw [E.outSchema _ _ _ _ (h.alike hb)]
  split
  · exact ⟨h, rfl⟩
  · exact doneOrErr (andThen (h.outputInterceptor hb ob td) fun _ _ h1 => andThen (h1.storeOutputs E hb _ td) fun _ _ h2 => h2.assertion ob)

theorem evalErrorData (h : SimE B N r e f) (t : TaskId) (err : Err) : SimE B N r (e.evalErrorData 0 t err) (f.evalErrorData 0 t err) := by
  unfold Eng.evalErrorData
  refine h.modI fun I J k => ?_
  dsimp only
  rw [k.handling]
  split
  · exact k.setValue _ _
  · exact (k.setValue _ _).setValue _ _

theorem applyInputMapper (E : DataOnly env) (h : SimE B N r e f) {b : Nat} (hb : b < N) (name : String) :
    SimR B N r (Eng.applyInputMapper env e 0 (r b) name) (Eng.applyInputMapper env f 0 b name) := by
  unfold Eng.applyInputMapper
  rw [E.inMap _ _ _ _ (h.alike hb)]
  split
  · exact ⟨h, rfl⟩
  · exact ⟨h, rfl⟩
  · exact ⟨h.modO hb _, rfl⟩

theorem mocked (h : SimE B N r e f) (ob : Obj) : Eng.mocked env e 0 ob = Eng.mocked env f 0 ob := by
  unfold Eng.mocked; rw [h.icpOut ob]

theorem evalWith (E : DataOnly env) {x y : Eng × Bool} (h : SimR B N r x y) {b : Nat} (hb : b < N) (ob : Obj) (td : TaskDef) (hs : ∀ uri, td.act ≠ .subflow uri) :
    SimR B N r (Eng.evalWith env x 0 (r b) ob td) (Eng.evalWith env y 0 b ob td) := by
  obtain ⟨x1, x2⟩ := x
  obtain ⟨y1, y2⟩ := y
  obtain ⟨h1, h2⟩ := h
  have h1 : SimE B N r x1 y1 := h1
  have h2 : x2 = y2 := h2
  subst h2
  unfold Eng.evalWith
  dsimp only
  split
  · exact h1.afterDone E hb ob td
  · rw [E.inSchema _ _ _ _ (h1.alike hb)]
    cases env.inSchema y1 0 b with
    | some err => exact ⟨h1, rfl⟩
    | none =>
      dsimp only
      rw [h1.mocked ob]
      split
      · exact h1.afterDone E hb ob td
      · have hc := h1.callActivity E hb ob td hs
        revert hc
        generalize Eng.callActivity env x1 0 (r b) ob td = u
        generalize Eng.callActivity env y1 0 b ob td = v
        obtain ⟨u1, u2, u3⟩ := u
        obtain ⟨v1, v2, v3⟩ := v
        intro hc
        obtain ⟨hc1, hc2⟩ := hc
        have hc1 : SimE B N r u1 v1 := hc1
        cases hc2
        cases u2 with
        | error err =>
          dsimp only
          cases u3
          · exact ⟨hc1.evalErrorData _ _, rfl⟩
          · exact ⟨hc1, rfl⟩
        | ok d =>
          cases d
          · exact ⟨hc1, rfl⟩
          · exact hc1.afterDone E hb ob td

theorem noSub (h : SimE B N r e f) {t : TaskRef} {td : TaskDef} (ht : f.taskDef? 0 t = some td) (uri : String) : td.act ≠ .subflow uri := by
  obtain ⟨I, J, _, h2, h3⟩ := h.inst0
  unfold Eng.taskDef? at ht
  rw [h2] at ht
  exact h3.plain t td ht uri

theorem evalOnce (E : DataOnly env) (h : SimE B N r e f) {b : Nat} (hb : b < N) :
    SimR B N r (Eng.evalOnce env e 0 (r b)) (Eng.evalOnce env f 0 b) := by
  obtain ⟨ob, h1, h2⟩ := h.obj hb
  unfold Eng.evalOnce
  rw [h1, h2]
  dsimp only
  rw [h.taskDef]
  cases htd : f.taskDef? 0 ob.task with
  | none => exact ⟨h, rfl⟩
  | some td =>
    dsimp only
    have hm := h.applyInputMapper E hb td.name
    revert hm
    generalize Eng.applyInputMapper env e 0 (r b) td.name = u
    generalize Eng.applyInputMapper env f 0 b td.name = v
    obtain ⟨u1, u2⟩ := u
    obtain ⟨v1, v2⟩ := v
    intro hm
    obtain ⟨hm1, hm2⟩ := hm
    have hm1 : SimE B N r u1 v1 := hm1
    have hm2 : u2 = v2 := hm2
    subst hm2
    cases u2 with
    | some err => exact ⟨hm1, rfl⟩
    | none => exact evalWith E (hm1.inputInterceptor hb ob) hb ob td (h.noSub htd)

theorem setRetry (h : SimE B N r e f) {b : Nat} (hb : b < N) (c : Int) : SimE B N r (e.setRetry 0 (r b) c) (f.setRetry 0 b c) := h.modO hb _

theorem getRetry (E : DataOnly env) (h : SimE B N r e f) {b : Nat} (hb : b < N) :
    SimR B N r (Eng.getRetry env e 0 (r b)) (Eng.getRetry env f 0 b) := by
  unfold Eng.getRetry
  rw [h.objEq hb, E.retryCount _ _ _ _ (h.alike hb)]
  split
  · exact ⟨h, rfl⟩
  · split
    · exact ⟨h, rfl⟩
    · exact ⟨h.setRetry hb _, rfl⟩

theorem retryFrom (E : DataOnly env) {b : Nat} (hb : b < N) : ∀ (n : Nat) {e f : Eng}, SimE B N r e f →
    SimR B N r (Eng.retryFrom env n e 0 (r b)) (Eng.retryFrom env n f 0 b) := by
  intro n
  induction n with
  | zero => intro e f h; exact (h.setRetry hb 0).evalOnce E hb
  | succ n ih =>
    intro e f h
    have h1 := (h.setRetry hb (n + 1)).evalOnce E hb
    unfold Eng.retryFrom
    revert h1
    generalize Eng.evalOnce env (e.setRetry 0 (r b) (n + 1)) 0 (r b) = u
    generalize Eng.evalOnce env (f.setRetry 0 b (n + 1)) 0 b = v
    obtain ⟨u1, u2⟩ := u
    obtain ⟨v1, v2⟩ := v
    intro h1
    obtain ⟨h1, h2⟩ := h1
    have h2 : u2 = v2 := h2
    subst h2
    cases u2 with
    | ok d => exact ⟨h1, rfl⟩
    | error err =>
      dsimp only
      split
      · exact ih h1
      · exact ⟨h1, rfl⟩

theorem hasRetry (h : SimE B N r e f) {b : Nat} (hb : b < N) : e.hasRetry 0 (r b) = f.hasRetry 0 b := by
  unfold Eng.hasRetry
  rw [h.objEq hb]
  split
  · rfl
  · rw [h.taskDef]

theorem evalActivity (E : DataOnly env) (h : SimE B N r e f) {b : Nat} (hb : b < N) :
    SimR B N r (Eng.evalActivity env e 0 (r b)) (Eng.evalActivity env f 0 b) := by
  have h1 := h.evalOnce E hb
  unfold Eng.evalActivity
  revert h1
  generalize Eng.evalOnce env e 0 (r b) = u
  generalize Eng.evalOnce env f 0 b = v
  obtain ⟨u1, u2⟩ := u
  obtain ⟨v1, v2⟩ := v
  intro h1
  obtain ⟨h1, h2⟩ := h1
  have h1 : SimE B N r u1 v1 := h1
  have h2 : u2 = v2 := h2
  subst h2
  cases u2 with
  | ok d => exact ⟨h1, rfl⟩
  | error err =>
    dsimp only
    rw [h1.hasRetry hb]
    split
    · have h3 := h1.getRetry E hb
      revert h3
      generalize Eng.getRetry env u1 0 (r b) = u
      generalize Eng.getRetry env v1 0 b = v
      obtain ⟨w1, w2⟩ := u
      obtain ⟨z1, z2⟩ := v
      intro h3
      obtain ⟨h3, h4⟩ := h3
      have h3 : SimE B N r w1 z1 := h3
      have h4 : w2 = z2 := h4
      subst h4
      cases w2 with
      | error err => exact ⟨h3, rfl⟩
      | ok c =>
        dsimp only
        split
        · exact retryFrom E hb _ h3
        · exact ⟨h3, rfl⟩
    · exact ⟨h1, rfl⟩

theorem callPost (E : DataOnly env) (h : SimE B N r e f) {b : Nat} (hb : b < N) (td : TaskDef) :
    SimR B N r (Eng.callPost env e 0 (r b) td) (Eng.callPost env f 0 b td) := by
  unfold Eng.callPost
  dsimp only
  rw [E.post _ _ _ _ (h.alike hb)]
  split
  · split <;> exact ⟨h.applyActOut hb _, rfl⟩
  · exact ⟨h, rfl⟩

theorem postStore (E : DataOnly env) (h : SimE B N r e f) {b : Nat} (hb : b < N) (ob : Obj) (td : TaskDef) :
    SimR B N r (Eng.postStore env e 0 (r b) ob td) (Eng.postStore env f 0 b ob td) := by
  unfold Eng.postStore
  have h1 : SimR B N r (Eng.andThen (Eng.outputInterceptor env e 0 (r b) ob td) (fun e1 =>
      Eng.andThen (if td.accumulates then e1.accumulate 0 (r b) ob.task.id else Eng.outputMapper env e1 0 (r b) td.name)
        (fun e2 => Eng.assertion env e2 0 ob))) (Eng.andThen (Eng.outputInterceptor env f 0 b ob td) (fun e1 =>
      Eng.andThen (if td.accumulates then e1.accumulate 0 b ob.task.id else Eng.outputMapper env e1 0 b td.name)
        (fun e2 => Eng.assertion env e2 0 ob))) := by
    refine andThen (h.outputInterceptor hb ob td) fun e1 f1 h1 => andThen ?_ fun _ _ h2 => h2.assertion ob
    split
    · exact h1.accumulate hb _
    · exact h1.outputMapper E hb _
  revert h1
  generalize Eng.andThen (Eng.outputInterceptor env e 0 (r b) ob td) _ = u
  generalize Eng.andThen (Eng.outputInterceptor env f 0 b ob td) _ = v
  obtain ⟨u1, u2⟩ := u
  obtain ⟨v1, v2⟩ := v
  intro h1
  obtain ⟨h1, h2⟩ := h1
  have h2 : u2 = v2 := h2
  subst h2
  cases u2 <;> exact ⟨h1, rfl⟩

theorem postOnce (E : DataOnly env) (h : SimE B N r e f) {b : Nat} (hb : b < N) :
    SimR B N r (Eng.postOnce env e 0 (r b)) (Eng.postOnce env f 0 b) := by
  obtain ⟨ob, h1, h2⟩ := h.obj hb
  unfold Eng.postOnce
  rw [h1, h2]
  dsimp only
  rw [h.taskDef]
  cases f.taskDef? 0 ob.task with
  | none => exact ⟨h, rfl⟩
  | some td =>
    dsimp only
    have h3 : SimE B N r (e.modI 0 (fun I => { I with trace := .postAct (r b) ob.task :: I.trace })) (f.modI 0 (fun I => { I with trace := .postAct b ob.task :: I.trace })) :=
      h.modI fun I J k => k.ev _ _ rfl
    have h4 := h3.callPost E hb td
    revert h4
    generalize Eng.callPost env (e.modI 0 _) 0 (r b) td = u
    generalize Eng.callPost env (f.modI 0 _) 0 b td = v
    obtain ⟨u1, u2⟩ := u
    obtain ⟨v1, v2⟩ := v
    intro h4
    obtain ⟨h4, h5⟩ := h4
    have h4 : SimE B N r u1 v1 := h4
    have h5 : u2 = v2 := h5
    subst h5
    cases u2 with
    | error err => exact ⟨h4, rfl⟩
    | ok done =>
      dsimp only
      rw [h4.objEq hb]
      cases (v1.obj? 0 b).bind (·.returnError) with
      | some err => exact ⟨h4, rfl⟩
      | none =>
        dsimp only
        split
        · exact h4.postStore E hb ob td
        · exact ⟨h4, rfl⟩

theorem setStatus (h : SimE B N r e f) {b : Nat} (hb : b < N) (s : TaskStatus) : SimE B N r (e.setStatus 0 (r b) s) (f.setStatus 0 b s) :=
  h.modI fun _ _ k => k.setTaskStatus hb s

theorem evalBasic (E : DataOnly env) (h : SimE B N r e f) {b : Nat} (hb : b < N) :
    SimR B N r (Eng.evalBasic env e 0 (r b)) (Eng.evalBasic env f 0 b) := by
  have h1 := h.evalActivity E hb
  unfold Eng.evalBasic
  revert h1
  generalize Eng.evalActivity env e 0 (r b) = u
  generalize Eng.evalActivity env f 0 b = v
  obtain ⟨u1, u2⟩ := u
  obtain ⟨v1, v2⟩ := v
  intro h1
  obtain ⟨h1, h2⟩ := h1
  have h2 : u2 = v2 := h2
  subst h2
  cases u2 with
  | error err => exact ⟨h1, rfl⟩
  | ok d => cases d <;> exact ⟨h1, rfl⟩

theorem postBasic (E : DataOnly env) (h : SimE B N r e f) {b : Nat} (hb : b < N) :
    SimR B N r (Eng.postBasic env e 0 (r b)) (Eng.postBasic env f 0 b) := by
  have h1 := h.postOnce E hb
  unfold Eng.postBasic
  revert h1
  generalize Eng.postOnce env e 0 (r b) = u
  generalize Eng.postOnce env f 0 b = v
  obtain ⟨u1, u2⟩ := u
  obtain ⟨v1, v2⟩ := v
  intro h1
  obtain ⟨h1, h2⟩ := h1
  have h1 : SimE B N r u1 v1 := h1
  have h2 : u2 = v2 := h2
  subst h2
  cases u2 with
  | ok d => exact ⟨h1, rfl⟩
  | error err =>
    dsimp only
    rw [h1.hasRetry hb]
    split
    · have h3 := h1.getRetry E hb
      revert h3
      generalize Eng.getRetry env u1 0 (r b) = u
      generalize Eng.getRetry env v1 0 b = v
      obtain ⟨w1, w2⟩ := u
      obtain ⟨z1, z2⟩ := v
      intro h3
      obtain ⟨h3, h4⟩ := h3
      have h3 : SimE B N r w1 z1 := h3
      have h4 : w2 = z2 := h4
      subst h4
      cases w2 with
      | error err => exact ⟨h3, rfl⟩
      | ok c =>
        dsimp only
        split
        · have h5 := retryFrom E hb (c.toNat - 1) h3
          revert h5
          generalize Eng.retryFrom env (c.toNat - 1) w1 0 (r b) = u
          generalize Eng.retryFrom env (c.toNat - 1) z1 0 b = v
          obtain ⟨x1, x2⟩ := u
          obtain ⟨y1, y2⟩ := v
          intro h5
          obtain ⟨h5, h6⟩ := h5
          have h6 : x2 = y2 := h6
          subst h6
          cases x2 with
          | error err => exact ⟨h5, rfl⟩
          | ok d => cases d <;> exact ⟨h5, rfl⟩
        · exact ⟨h3, rfl⟩
    · exact ⟨h1, rfl⟩

theorem getIter (E : DataOnly env) (h : SimE B N r e f) {b : Nat} (hb : b < N) (td : TaskDef) :
    Eng.getIter env e 0 (r b) td = Eng.getIter env f 0 b td := by
  unfold Eng.getIter
  rw [h.objEq hb, E.iterOn _ _ _ _ (h.alike hb)]

theorem evalIter (E : DataOnly env) (h : SimE B N r e f) {b : Nat} (hb : b < N) (td : TaskDef) :
    SimR B N r (Eng.evalIter env e 0 (r b) td) (Eng.evalIter env f 0 b td) := by
  unfold Eng.evalIter
  rw [h.getIter E hb td]
  split
  · exact ⟨h, rfl⟩
  · exact ⟨h, rfl⟩
  · rename_i it _
    dsimp only
    split
    · exact ⟨h.modO hb _, rfl⟩
    · cases it.next.1.value with
      | none => exact ⟨h, rfl⟩
      | some v =>
        dsimp only
        have h1 := (h.modO hb (fun x => { x with iter := some it.next.1, iteration := some (it.next.1.key, v, it.next.1.current) })).evalActivity E hb
        revert h1
        generalize Eng.evalActivity env (e.modI 0 _) 0 (r b) = u
        generalize Eng.evalActivity env (f.modI 0 _) 0 b = w
        obtain ⟨u1, u2⟩ := u
        obtain ⟨w1, w2⟩ := w
        intro h1
        obtain ⟨h1, h2⟩ := h1
        have h1 : SimE B N r u1 w1 := h1
        have h2 : u2 = w2 := h2
        subst h2
        cases u2 with
        | error err => exact ⟨h1.setStatus hb _, rfl⟩
        | ok d =>
          cases d
          · exact ⟨h1.setStatus hb _, rfl⟩
          · exact ⟨h1, rfl⟩

theorem postIter (E : DataOnly env) (h : SimE B N r e f) {b : Nat} (hb : b < N) :
    SimR B N r (Eng.postIter env e 0 (r b)) (Eng.postIter env f 0 b) := by
  have h1 := h.postOnce E hb
  unfold Eng.postIter
  revert h1
  generalize Eng.postOnce env e 0 (r b) = u
  generalize Eng.postOnce env f 0 b = v
  obtain ⟨u1, u2⟩ := u
  obtain ⟨v1, v2⟩ := v
  intro h1
  obtain ⟨h1, h2⟩ := h1
  have h1 : SimE B N r u1 v1 := h1
  have h2 : u2 = v2 := h2
  subst h2
  cases u2 with
  | error err => exact ⟨h1.setStatus hb _, rfl⟩
  | ok d =>
    dsimp only
    have h3 : SimE B N r (u1.setStatus 0 (r b) .done) (v1.setStatus 0 b .done) := h1.setStatus hb .done
    rw [h3.objEq hb]
    cases ((v1.setStatus 0 b .done).obj? 0 b).bind (·.iter) <;> exact ⟨h3, rfl⟩

theorem dwCheck (E : DataOnly env) (h : SimE B N r e f) {b : Nat} (hb : b < N) (td : TaskDef) :
    SimR B N r (Eng.dwCheck env e 0 (r b) td) (Eng.dwCheck env f 0 b td) := by
  unfold Eng.dwCheck
  rw [E.cond _ _ _ _ (h.alike hb)]
  exact ⟨h.modO hb _, rfl⟩

theorem evalDoWhile (E : DataOnly env) (h : SimE B N r e f) {b : Nat} (hb : b < N) (td : TaskDef) :
    SimR B N r (Eng.evalDoWhile env e 0 (r b) td) (Eng.evalDoWhile env f 0 b td) := by
  have h0 : SimE B N r (e.dwInit 0 (r b)) (f.dwInit 0 b) := h.modO hb _
  have h1 := h0.evalActivity E hb
  unfold Eng.evalDoWhile
  revert h1
  generalize Eng.evalActivity env (e.dwInit 0 (r b)) 0 (r b) = u
  generalize Eng.evalActivity env (f.dwInit 0 b) 0 b = v
  obtain ⟨u1, u2⟩ := u
  obtain ⟨v1, v2⟩ := v
  intro h1
  obtain ⟨h1, h2⟩ := h1
  have h1 : SimE B N r u1 v1 := h1
  have h2 : u2 = v2 := h2
  subst h2
  cases u2 with
  | error err => exact ⟨h1.setStatus hb _, rfl⟩
  | ok d =>
    cases d
    · exact ⟨h1.setStatus hb _, rfl⟩
    · exact h1.dwCheck E hb td

theorem postDoWhile (E : DataOnly env) (h : SimE B N r e f) {b : Nat} (hb : b < N) (td : TaskDef) :
    SimR B N r (Eng.postDoWhile env e 0 (r b) td) (Eng.postDoWhile env f 0 b td) := by
  have h0 : SimE B N r (e.dwInit 0 (r b)) (f.dwInit 0 b) := h.modO hb _
  have h1 := h0.postOnce E hb
  unfold Eng.postDoWhile
  revert h1
  generalize Eng.postOnce env (e.dwInit 0 (r b)) 0 (r b) = u
  generalize Eng.postOnce env (f.dwInit 0 b) 0 b = v
  obtain ⟨u1, u2⟩ := u
  obtain ⟨v1, v2⟩ := v
  intro h1
  obtain ⟨h1, h2⟩ := h1
  have h1 : SimE B N r u1 v1 := h1
  have h2 : u2 = v2 := h2
  subst h2
  cases u2 with
  | error err => exact ⟨h1.setStatus hb _, rfl⟩
  | ok d => exact (h1.setStatus hb .done).dwCheck E hb td

theorem evalKind (E : DataOnly env) (h : SimE B N r e f) {b : Nat} (hb : b < N) (td : TaskDef) :
    SimR B N r (Eng.evalKind env e 0 (r b) td) (Eng.evalKind env f 0 b td) := by
  unfold Eng.evalKind
  split
  · exact h.evalBasic E hb
  · exact h.evalIter E hb td
  · exact h.evalDoWhile E hb td

theorem postKind (E : DataOnly env) (h : SimE B N r e f) {b : Nat} (hb : b < N) (td : TaskDef) :
    SimR B N r (Eng.postKind env e 0 (r b) td) (Eng.postKind env f 0 b td) := by
  unfold Eng.postKind
  split
  · exact h.postBasic E hb
  · exact h.postIter E hb
  · exact h.postDoWhile E hb td

/-! ### Control -/

theorem complete (h : SimE B N r e f) : SimE B N r (e.complete 0) (f.complete 0) := by
  obtain ⟨I, J, h1, h2, _⟩ := h.inst0
  unfold Eng.complete
  rw [h1, h2]
  dsimp only
  rw [if_pos rfl, if_pos rfl]
  exact h.modI fun _ _ k => k.setFlowStatus _

theorem appendErrorData (h : SimE B N r e f) (t : TaskId) (err : Err) : SimE B N r (e.appendErrorData 0 t err) (f.appendErrorData 0 t err) :=
  h.modI fun _ _ k => (k.setValue _ _).setValue _ _

theorem go (h : SimE B N r e f) (st : List Frame) : SimE B N r { e with cur := 0, stack := st } { f with cur := 0, stack := st } :=
  { h with stack := rfl, cur := fun _ => ⟨rfl, rfl⟩ }

theorem globalError (h : SimE B N r e f) (err : Err) : SimE B N r (e.globalError 0 err) (f.globalError 0 err) := by
  obtain ⟨I, J, h1, h2, h3⟩ := h.inst0
  unfold Eng.globalError
  rw [h1, h2]
  dsimp only
  rw [h3.handling, h3.defn]
  split
  · exact h.modI fun _ _ k => k.setFlowStatus _
  · have h4 : SimE B N r (e.modI 0 (fun J => { J with handling := true })) (f.modI 0 (fun J => { J with handling := true })) :=
      h.modI fun _ _ k => { k with handling := rfl }
    split
    · have h5 := (h4.modI fun _ _ k => k.clearTasks).modI (g := fun J => { J with trace := .ehStart :: J.trace }) (g' := fun J => { J with trace := .ehStart :: J.trace })
        fun _ _ k => k.ev _ _ rfl
      exact h5.go _
    · rw [if_pos rfl, if_pos rfl]
      exact (h4.modI fun _ _ k => k.setFlowStatus _).modI fun _ _ k => { k with returnError := rfl }

theorem taskError (h : SimE B N r e f) {b : Nat} (hb : b < N) (t : TaskRef) (err : Err) : SimE B N r (e.taskError 0 (r b) t err) (f.taskError 0 b t err) := by
  obtain ⟨I, J, h1, h2, h3⟩ := h.inst0
  unfold Eng.taskError
  rw [h1, h2]
  dsimp only
  have h4 := h3.errorTask hb t
  revert h4
  generalize I.errorTask (r b) t = u
  generalize J.errorTask b t = v
  obtain ⟨u1, u2⟩ := u
  obtain ⟨v1, v2⟩ := v
  intro h4
  obtain ⟨h4, h5⟩ := h4
  have h4 : SimI B N r u1 v1 := h4
  have h5 : u2 = v2 := h5
  subst h5
  cases u2 with
  | some es =>
    dsimp only
    exact (h.modI fun _ _ _ => h4.setValue _ _).go _
  | none =>
    dsimp only
    rw [h3.handling]
    have h6 : SimE B N r (e.modI 0 (fun _ => u1)) (f.modI 0 (fun _ => v1)) := h.modI fun _ _ _ => h4
    split
    · rw [if_pos rfl, if_pos rfl]
      exact (h6.modI fun _ _ k => k.setFlowStatus _).appendErrorData _ _
    · exact (h6.appendErrorData _ _).globalError err

theorem finishTask (h : SimE B N r e f) (t : TaskRef) (notify : Bool) (es : List TaskEntry) (rest : List Frame) :
    SimE B N r (e.finishTask 0 t notify es rest) (f.finishTask 0 t notify es rest) := by
  obtain ⟨I, J, h1, h2, h3⟩ := h.inst0
  unfold Eng.finishTask
  rw [h1, h2]
  dsimp only
  rw [h3.allDone, h3.force]
  split
  · exact h.complete.go _
  · exact h.go _

theorem taskName (h : SimE B N r e f) (t : TaskRef) : e.taskName 0 t = f.taskName 0 t := by
  unfold Eng.taskName; rw [h.taskDef]

theorem topName (h : SimE B N r e f) : e.topName = f.topName := by
  obtain ⟨I, J, h1, h2, h3⟩ := h.inst0
  unfold Eng.topName; rw [h1, h2]; dsimp only; rw [h3.defn]

theorem taskDone (E : DataOnly env) (h : SimE B N r e f) {b : Nat} (hb : b < N) (t : TaskRef) :
    SimE B N r (Eng.taskDone env e 0 (r b) t) (Eng.taskDone env f 0 b t) := by
  obtain ⟨I, J, h1, h2, h3⟩ := h.inst0
  unfold Eng.taskDone
  rw [h1, h2]
  dsimp only
  have hl : env.link e 0 = env.link f 0 := funext fun l => E.link _ _ l h.alikeFlow
  rw [hl, h.taskName, h.topName]
  have h4 := h3.doneTask hb env.prio (env.link f 0) t
  revert h4
  generalize Inst.doneTask env.prio (env.link f 0) I (r b) t = u
  generalize Inst.doneTask env.prio (env.link f 0) J b t = v
  obtain ⟨u1, u2⟩ := u
  obtain ⟨v1, v2⟩ := v
  intro h4
  obtain ⟨h4, h5⟩ := h4
  have h4 : SimI B N r u1 v1 := h4
  have h5 : u2 = v2 := h5
  subst h5
  have h6 : SimE B N r (e.modI 0 (fun _ => u1)) (f.modI 0 (fun _ => v1)) := h.modI fun _ _ _ => h4
  cases u2 with
  | error m => exact (h6.appendErrorData _ _).globalError _
  | ok es =>
    dsimp only
    rw [h3.defn]
    exact h6.finishTask _ _ _ _

theorem taskSkipped (h : SimE B N r e f) {b : Nat} (hb : b < N) (rest : List Frame) :
    SimE B N r (e.taskSkipped 0 (r b) rest) (f.taskSkipped 0 b rest) := by
  obtain ⟨I, J, h1, h2, h3⟩ := h.inst0
  obtain ⟨ob, h4, h5⟩ := h3.obj hb
  unfold Eng.taskSkipped
  rw [h1, h2]
  dsimp only
  rw [h4, h5]
  dsimp only
  have h6 := h3.skipTask hb ob.task
  revert h6
  generalize I.skipTask (r b) ob.task = u
  generalize J.skipTask b ob.task = v
  obtain ⟨u1, u2⟩ := u
  obtain ⟨v1, v2⟩ := v
  intro h6
  obtain ⟨h6, h7⟩ := h6
  have h6 : SimI B N r u1 v1 := h6
  have h7 : u2 = v2 := h7
  subst h7
  dsimp only
  rw [h3.defn]
  have h8 : SimE B N r (e.modI 0 (fun _ => u1)) (f.modI 0 (fun _ => v1)) := h.modI fun _ _ _ => h6
  exact h8.finishTask _ _ _ _

theorem handleResult (E : DataOnly env) (h : SimE B N r e f) {b : Nat} (hb : b < N) (t : TaskRef) (name : String) (x : Eng.EvalOut) :
    SimE B N r (Eng.handleResult env e 0 (r b) t name x) (Eng.handleResult env f 0 b t name x) := by
  unfold Eng.handleResult
  split
  · exact h.taskError hb t _
  · exact h.taskDone E hb t
  · exact h.taskDone E hb t
  · exact h.setStatus hb _
  · exact h.setStatus hb _
  · exact h.schedule hb
  · obtain ⟨I, J, h1, h2, h3⟩ := h.inst0
    rw [h1, h2]
    dsimp only
    rw [h3.handling]
    split
    · exact h
    · exact (h.appendErrorData _ _).globalError _

theorem exec (E : DataOnly env) (h : SimE B N r e f) {b : Nat} (hb : b < N) : SimE B N r (Eng.exec env e 0 (r b)) (Eng.exec env f 0 b) := by
  obtain ⟨ob, h1, h2⟩ := h.obj hb
  unfold Eng.exec
  rw [h1, h2]
  dsimp only
  rw [h.taskDef]
  cases f.taskDef? 0 ob.task with
  | none => exact h
  | some td =>
    dsimp only
    have h3 := h.postKind E hb td
    have h4 := h.evalKind E hb td
    split
    · rw [h3.2]; exact h3.1.handleResult E hb _ _ _
    · exact h
    · exact h
    · rw [h4.2]; exact h4.1.handleResult E hb _ _ _

/-- New task objects leave the pending items as they are. -/
theorem grow (h : SimE B N r e f) {N' : Nat} {r' : Nat → Nat} (hg : SimI.Grows N N' r r') {I J : Inst} (hI : SimI B N' r' I J) :
    SimE B N' r' (e.modI 0 (fun _ => I)) (f.modI 0 (fun _ => J)) := by
  obtain ⟨I0, J0, h1, h2, _⟩ := h.insts
  refine { h with insts := ⟨I, J, Eng.modI_one h1 _, Eng.modI_one h2 _, hI⟩, queue := ?_, items := fun w hw => ?_ }
  · show e.queue.map _ = f.queue.map _
    rw [h.queue]
    exact List.map_congr_left fun w hw => by rw [hg.2 _ (h.items w hw).2]
  · exact ⟨(h.items w hw).1, Nat.lt_of_lt_of_le (h.items w hw).2 hg.1⟩

theorem enterEntry (E : DataOnly env) (h : SimE B N r e f) (he : e.cur = 0) (hf : f.cur = 0) (x : TaskEntry) (xs : List TaskEntry) (rest : List Frame) :
    ∃ N' r', SimE B N' r' (Eng.enterEntry env e x xs rest) (Eng.enterEntry env f x xs rest) := by
  obtain ⟨I, J, h1, h2, h3⟩ := h.inst0
  obtain ⟨N', r', hg, h4, h5, h6, h7⟩ := h3.enterTask x.task
  refine ⟨N', r', ?_⟩
  have h8 := h.grow hg h4
  unfold Eng.enterEntry
  rw [he, hf, h1, h2]
  dsimp only
  rw [h6, h7]
  cases (J.enterTask x.task).2.2 with
  | notReady => exact { h8 with stack := rfl, cur := fun _ => ⟨he, hf⟩ }
  | eval =>
    dsimp only
    rw [E.settingsOk _ _ _ _ (h8.alike h5)]
    split
    · exact { h8.schedule h5 with stack := rfl, cur := fun _ => ⟨he, hf⟩ }
    · exact { h8 with stack := rfl, cur := fun _ => ⟨he, hf⟩ }
  | skip => exact h8.taskSkipped h5 _

theorem doStep (E : DataOnly env) (h : SimE B N r e f) : SimE B N r (Eng.doStep env e) (Eng.doStep env f) := by
  obtain ⟨I, J, h1, h2, h3⟩ := h.inst0
  have hl : e.queue.length = f.queue.length := by
    have := congrArg List.length h.queue
    rw [List.length_map, List.length_map] at this
    exact this
  have hp := E.pick e f hl
  unfold Eng.doStep
  rw [h1, h2]
  dsimp only
  rw [h3.status, hp, hl]
  split
  · generalize env.pick f % f.queue.length = k
    have hk : (e.queue[k]?).map (fun w => (w.inst, w.obj)) = (f.queue[k]?).map (fun w => (w.inst, r w.obj)) := by
      rw [← List.getElem?_map, ← List.getElem?_map, h.queue]
    cases hw : f.queue[k]? with
    | none =>
      rw [hw] at hk
      cases hv : e.queue[k]? with
      | none => exact { h with }
      | some v => rw [hv] at hk; cases hk
    | some w =>
      rw [hw] at hk
      cases hv : e.queue[k]? with
      | none => rw [hv] at hk; cases hk
      | some v =>
        rw [hv] at hk
        have hk := Prod.mk.inj (Option.some.inj hk)
        have hi := h.items w (List.mem_of_getElem? hw)
        dsimp only
        rw [hk.1, hk.2, hi.1]
        refine exec E (e := { e with stepID := e.stepID + 1, queue := e.queue.eraseIdx k, qlog := .removed v :: e.qlog })
          (f := { f with stepID := f.stepID + 1, queue := f.queue.eraseIdx k, qlog := .removed w :: f.qlog }) ?_ hi.2
        refine { h with queue := ?_, items := fun w' hw' => h.items w' (List.mem_of_mem_eraseIdx hw') }
        show (e.queue.eraseIdx k).map _ = (f.queue.eraseIdx k).map _
        rw [map_eraseIdx, map_eraseIdx, h.queue]
  · exact { h with }

theorem step (E : DataOnly env) (h : SimE B N r e f) : ∃ N' r', SimE B N' r' (Eng.step env e) (Eng.step env f) := by
  unfold Eng.step
  have hs := h.stack
  have hc := h.cur
  rw [hs]
  revert hc
  generalize f.stack = st at *
  intro hc
  split
  · exact ⟨N, r, h.doStep E⟩
  · have hc := hc (fun hn => nomatch hn)
    exact ⟨N, r, { h with stack := rfl, cur := fun _ => hc }⟩
  · have hc := hc (fun hn => nomatch hn)
    exact h.enterEntry E hc.1 hc.2 _ _ _
  · have hc := hc (fun hn => nomatch hn)
    rw [hc.1, hc.2]
    exact ⟨N, r, { h.modI fun _ _ k => k.release _ with stack := rfl, cur := fun _ => hc }⟩

theorem run (E : DataOnly env) (h : SimE B N r e f) : ∀ n, ∃ N' r', SimE B N' r' (Eng.run env e n) (Eng.run env f n) := by
  intro n
  induction n with
  | zero => exact ⟨N, r, h⟩
  | succ n ih => obtain ⟨N', r', k⟩ := ih; exact k.step E

end SimE

end Flow
