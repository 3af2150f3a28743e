import Verif.Proofs.Fail
import Verif.Proofs.Ops
import Verif.Spec.Events

/-!
Lemmas on the posted events: after the evaluation of a task the invariants hold, a failing task posts its error, and the
events of the flow.
-/

namespace Flow
open Spec

theorem posted_findLinks (I : Inst) (ls : List LinkDef) : (I.findLinks ls).posted = I.posted := by
  unfold Inst.findLinks
  induction ls generalizing I with
  | nil => rfl
  | cons l ls ih =>
    simp only [List.foldl_cons]
    rw [ih]
    unfold Inst.findLink
    split <;> rfl

theorem posted_applyRows (I : Inst) (rows : List (LinkDef × LinkStatus × Nat)) : (I.applyRows rows).posted = I.posted := by
  unfold Inst.applyRows
  induction rows generalizing I with
  | nil => rfl
  | cons l ls ih =>
    simp only [List.foldl_cons]
    rw [ih]
    rfl

theorem posted_errorTask {I : Inst} {o : Nat} {ob : Obj} (ho : I.objs[o]? = some ob) (t : TaskRef) :
    (I.errorTask o t).1.posted = .task o ob.task .failed ob.returnError :: I.posted := by
  have h1 : (I.setTaskStatus o .failed).posted = .task o ob.task .failed ob.returnError :: I.posted := by
    unfold Inst.setTaskStatus; rw [ho]; rfl
  unfold Inst.errorTask
  dsimp only
  split
  · rw [posted_findLinks]; exact h1
  · rw [posted_applyRows, posted_findLinks]; exact h1

theorem filterMap_split {α β : Type} (f : α → Option β) : ∀ {l : List α} {post pre : List β} {y : β}, l.filterMap f = post ++ y :: pre →
    ∃ l1 x l2, l = l1 ++ x :: l2 ∧ f x = some y ∧ l2.filterMap f = pre
  | [], post, _, _, h => by simp at h
  | a :: l, post, pre, y, h => by
    cases hfa : f a with
    | none =>
      rw [List.filterMap_cons_none hfa] at h
      obtain ⟨l1, x, l2, h1, h2, h3⟩ := filterMap_split f h
      exact ⟨a :: l1, x, l2, by rw [h1]; rfl, h2, h3⟩
    | some b =>
      rw [List.filterMap_cons_some hfa] at h
      cases post with
      | nil =>
        simp only [List.nil_append, List.cons.injEq] at h
        exact ⟨[], a, l, rfl, by rw [hfa, h.1], h.2⟩
      | cons c post =>
        simp only [List.cons_append, List.cons.injEq] at h
        obtain ⟨l1, x, l2, h1, h2, h3⟩ := filterMap_split f h.2
        exact ⟨a :: l1, x, l2, by rw [h1]; rfl, h2, h3⟩

/-- Every task event posted belongs to an entry of the trace, and the events posted before it to earlier entries. -/
theorem posted_split {I : Inst} (hm : I.posted.map Post.ev = I.trace.filter isStatus) {post pre : List Post} {p : Post}
    (hs : I.posted = post ++ p :: pre) :
    ∃ tr1 tr2, I.trace = tr1 ++ p.ev :: tr2 ∧ pre.map Post.ev = tr2.filter isStatus := by
  rw [hs, List.map_append, List.map_cons] at hm
  have : I.trace.filterMap (Option.guard isStatus) = post.map Post.ev ++ p.ev :: pre.map Post.ev := by
    rw [hm, List.filterMap_eq_filter]
  obtain ⟨l1, x, l2, h1, h2, h3⟩ := filterMap_split _ this
  have hx : x = p.ev := by
    by_cases hc : isStatus x = true
    · simp [Option.guard, hc] at h2; exact h2
    · simp [Option.guard, hc] at h2
  subst hx
  refine ⟨l1, l2, h1, ?_⟩
  rw [← h3]
  rw [List.filterMap_eq_filter]

/-- A status change of a task that is in the trace was posted. -/
theorem news_of_trace {l : List Post} {tr : List Ev} (hm : l.map Post.ev = tr.filter isStatus) {o : Nat} {t : TaskRef} {s : TaskStatus}
    (h : .taskStatus o t s ∈ tr) : (o, t, s.eventName) ∈ taskNews l := by
  have h1 : Ev.taskStatus o t s ∈ l.map Post.ev := by rw [hm]; exact List.mem_filter.2 ⟨h, rfl⟩
  obtain ⟨p, h2, h3⟩ := List.mem_map.1 h1
  cases p with
  | flow s' err => cases h3
  | task o' t' s' err =>
    cases h3
    exact List.mem_filterMap.2 ⟨_, h2, rfl⟩

theorem flowNews_filter (l : List Post) : flowNews (l.filter Post.isFlow) = flowNews l := by
  unfold flowNews
  rw [List.filterMap_filter]
  congr 1
  funext p
  cases p <;> rfl

theorem flowNews_calm {I I' : Inst} (h : I'.posted.filter Post.isFlow = I.posted.filter Post.isFlow) : flowNews I'.posted = flowNews I.posted := by
  rw [← flowNews_filter, h, flowNews_filter]

namespace Eng

variable {env : Env}

/-- The state after the evaluation of a task satisfies the invariants. -/
theorem evaluates_good {e e' : Eng} {i o : Nat} {t : TaskRef} {r : EvalOut} (hr : Reachable env e)
    (h : Evaluates env e i o t e' r) : EngOK e' ∧ EExt e e' ∧ Readied e' i o := by
  obtain ⟨⟨w, hn, hwi, hwo, hout⟩, _⟩ := h
  subst hwi; subst hwo
  have ok := engOK_reachable hr
  obtain ⟨_, _, hw⟩ := next_some hn
  have h1 : Good e { e with queue := e.queue.eraseIdx (env.pick e % e.queue.length), qlog := .removed w :: e.qlog } :=
    Good.pop hw
  have h2 : Good { e with queue := e.queue.eraseIdx (env.pick e % e.queue.length), qlog := .removed w :: e.qlog }
      (afterPop env e w) := Good.ctl rfl rfl rfl rfl rfl (fun _ _ h => h)
  obtain ⟨ok1, hx1⟩ := h1.trans h2 ok
  have hrd := (ok.queue w (List.mem_of_getElem? hw)).ext hx1
  have key : Good (afterPop env e w) e' := by
    unfold outcome at hout
    split at hout
    · cases hout
    · split at hout
      · cases hout
      · rename_i ob _ td _
        split at hout
        · have := postKind_good (env := env) td hrd
          rw [Option.some.inj hout] at this; exact this
        · split at hout
          · cases hout
          · have := evalKind_good (env := env) td hrd
            rw [Option.some.inj hout] at this; exact this
  obtain ⟨ok2, hx2⟩ := key ok1
  exact ⟨ok2, hx1.trans hx2, hrd.ext hx2⟩

/-- A task that fails posts the error stored in the task object. -/
theorem taskError_posted {e : Eng} (ok : EngOK e) {i o : Nat} {ob : Obj} (ho : e.obj? i o = some ob) (hr : Readied e i o)
    (err : Err) : ∃ I' : Inst, (e.taskError i o ob.task err).insts[i]? = some I' ∧ .task o ob.task .failed ob.returnError ∈ I'.posted := by
  obtain ⟨I, hI, hob⟩ := obj?_some ho
  unfold Eng.taskError
  rw [hI]
  have hx := Ext.errorTask hob (hr.mem hI hob)
  have hp := posted_errorTask hob ob.task
  dsimp only
  split
  · rename_i I1 es h1
    rw [h1] at hp
    refine ⟨I1.setValue ("_E." ++ ob.task.id) (errorObj ob.task.id err), modI_self hI _, ?_⟩
    show _ ∈ I1.posted
    rw [hp]; exact List.mem_cons_self
  · rename_i I1 h1
    rw [h1] at hx hp
    have h2 : Good e (e.modI i (fun _ => I1)) := Good.modI fun _ J hJ => by rw [hI] at hJ; cases hJ; exact hx
    obtain ⟨ok1, _⟩ := h2 ok
    have key : ∀ f : Eng, Good (e.modI i (fun _ => I1)) f → ∃ I' : Inst, f.insts[i]? = some I' ∧ .task o ob.task .failed ob.returnError ∈ I'.posted := by
      intro f hf
      obtain ⟨I', h3, h4⟩ := (hf ok1).2 i I1 (modI_self hI _)
      exact ⟨I', h3, h4.memp (by rw [hp]; exact List.mem_cons_self)⟩
    split
    · have h3 : Good (e.modI i (fun _ => I1)) ((e.modI i (fun _ => I1)).modI i (fun J => J.setFlowStatus .failed)) :=
        Good.modI' (i := i) fun _ => Ext.setFlowStatus .failed (by decide)
      split
      · exact key _ (h3.trans (Good.appendErrorData _ _ _ _))
      · exact key _ (h3.trans (Good.failHost _ _ _))
    · exact key _ ((Good.appendErrorData _ _ _ _).trans (Good.globalError _ _ _))

end Eng
end Flow
