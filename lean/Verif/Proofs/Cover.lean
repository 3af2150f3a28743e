import Verif.Proofs.Step
import Verif.Spec.Cover

/-
Coverage entries and traces: what each operation adds to the observed part of the traces.
-/

namespace Flow

open Spec

variable {β : Type}

/-- The observation ignores everything except followed links and completed or failed tasks. -/
structure Heeds (p : Ev → Option β) : Prop where
  added : ∀ o t, p (.taskAdded o t) = none
  status : ∀ o t s, s ≠ .done → s ≠ .failed → p (.taskStatus o t s) = none
  removed : ∀ t, p (.taskRemoved t) = none
  linkAdded : ∀ l, p (.linkAdded l) = none
  link : ∀ l s, s ≠ .true → p (.linkStatus l s) = none
  linkRemoved : ∀ l, p (.linkRemoved l) = none
  flow : ∀ s, p (.flowStatus s) = none
  eval : ∀ o t, p (.evalAct o t) = none
  post : ∀ o t, p (.postAct o t) = none
  handler : p .ehStart = none
  cleared : p .cleared = none

theorem heeds_link : Heeds linkFollowed := by
  refine ⟨?_, ?_, ?_, ?_, ?_, ?_, ?_, ?_, ?_, ?_, ?_⟩ <;> intros <;> try rfl
  rename_i l s h
  cases s <;> first | rfl | exact absurd rfl h

theorem heeds_task : Heeds taskFinished := by
  refine ⟨?_, ?_, ?_, ?_, ?_, ?_, ?_, ?_, ?_, ?_, ?_⟩ <;> intros <;> try rfl
  rename_i o t s h1 h2
  cases s <;> first | rfl | exact absurd rfl h1 | exact absurd rfl h2

/-- What is observed of an instance, newest first. -/
def obs (p : Ev → Option β) (I : Inst) : List β := I.trace.filterMap p

/-- The operation adds nothing that is observed. -/
structure Hush (p : Ev → Option β) (I I' : Inst) : Prop where
  obs : obs p I' = obs p I
  defn : I'.defn = I.defn
  host : I'.host = I.host

namespace Hush

variable {p : Ev → Option β}

theorem refl (I : Inst) : Hush p I I := ⟨rfl, rfl, rfl⟩

theorem trans {I J K : Inst} (h : Hush p I J) (g : Hush p J K) : Hush p I K :=
  ⟨g.obs.trans h.obs, g.defn.trans h.defn, g.host.trans h.host⟩

theorem ev {I I' : Inst} {x : Ev} (hx : p x = none) (ht : I'.trace = x :: I.trace) (hd : I'.defn = I.defn)
    (hh : I'.host = I.host) : Hush p I I' :=
  ⟨by unfold Flow.obs; rw [ht, List.filterMap_cons, hx], hd, hh⟩

theorem of_trace {I I' : Inst} (ht : I'.trace = I.trace) (hd : I'.defn = I.defn) (hh : I'.host = I.host) : Hush p I I' :=
  ⟨by unfold Flow.obs; rw [ht], hd, hh⟩

theorem setTaskStatus (I : Inst) (o : Nat) (s : TaskStatus) (hs : ∀ t, p (.taskStatus o t s) = none) :
    Hush p I (I.setTaskStatus o s) := by
  unfold Inst.setTaskStatus
  split
  · exact refl I
  · exact ev (hs _) rfl rfl rfl

theorem status (hp : Heeds p) (I : Inst) (o : Nat) {s : TaskStatus} (h1 : s ≠ .done) (h2 : s ≠ .failed) :
    Hush p I (I.setTaskStatus o s) := setTaskStatus I o s fun t => hp.status o t s h1 h2

theorem flow (hp : Heeds p) (I : Inst) (s : FlowStatus) : Hush p I (I.setFlowStatus s) := ev (hp.flow s) rfl rfl rfl

theorem findTask (hp : Heeds p) (I : Inst) (t : TaskRef) : Hush p I (I.findOrCreateTask t).1 := by
  unfold Inst.findOrCreateTask
  split
  · exact refl I
  · exact ev (hp.added _ _) rfl rfl rfl

theorem findLink (hp : Heeds p) (I : Inst) (l : LinkId) : Hush p I (I.findLink l) := by
  unfold Inst.findLink
  split
  · exact refl I
  · exact ev (hp.linkAdded _) rfl rfl rfl

theorem findLinks (hp : Heeds p) (ls : List LinkDef) : ∀ I : Inst, Hush p I (I.findLinks ls) := by
  induction ls with
  | nil => exact refl
  | cons l ls ih => exact fun I => (findLink hp I l.id).trans (ih _)

theorem enterTask (hp : Heeds p) (I : Inst) (t : TaskRef) : Hush p I (I.enterTask t).1 := by
  unfold Inst.enterTask
  dsimp only
  have h1 := findTask hp I t
  split
  · exact h1
  · have h2 := h1.trans ((status hp _ (I.findOrCreateTask t).2 (s := .entered) (nomatch ·) (nomatch ·)).trans
      (findLinks hp ((I.findOrCreateTask t).1.defn.fromLinks (by assumption : Obj).task) _))
    split
    · exact h2
    · exact h2.trans (status hp _ _ (nomatch ·) (nomatch ·))
    · exact h2.trans (status hp _ _ (nomatch ·) (nomatch ·))

theorem release (hp : Heeds p) (I : Inst) (t : TaskRef) : Hush p I (I.release t) := by
  unfold Inst.release
  have h1 : Hush p I { I with tasks := I.tasks.del t.id, trace := .taskRemoved t.id :: I.trace } := ev (hp.removed _) rfl rfl rfl
  revert h1
  generalize ({ I with tasks := I.tasks.del t.id, trace := .taskRemoved t.id :: I.trace } : Inst) = J
  generalize I.defn.fromLinks t = ls
  intro h1
  induction ls generalizing J with
  | nil => exact h1
  | cons l ls ih => exact ih _ (h1.trans (ev (hp.linkRemoved _) rfl rfl rfl))

theorem rows (hp : Heeds p) (rs : List (LinkDef × LinkStatus × Nat)) (hr : ∀ r ∈ rs, r.2.1 ≠ .true) :
    ∀ I : Inst, Hush p I (I.applyRows rs) := by
  induction rs with
  | nil => exact refl
  | cons r rs ih =>
    intro I
    have h1 : Hush p I (I.setLink r.1.id r.2.1) := ev (hp.link _ _ (hr r (by simp))) rfl rfl rfl
    exact h1.trans (ih (fun x hx => hr x (by simp [hx])) _)

theorem skipTask (hp : Heeds p) (I : Inst) (o : Nat) (t : TaskRef) : Hush p I (I.skipTask o t).1 := by
  unfold Inst.skipTask
  refine ((findLinks hp _ I).trans (status hp _ o (s := .skipped) (nomatch ·) (nomatch ·))).trans (rows hp _ ?_ _)
  intro r hr
  simp only [skipRows, List.mem_map] at hr
  obtain ⟨l, _, rfl⟩ := hr
  exact (nomatch ·)

theorem same (hp : Heeds p) {o : Nat} {I I' : Inst} (h : SameInst o I I') : Hush p I I' := by
  obtain ⟨evs, h1, h2⟩ := h.trace
  refine ⟨?_, h.defn, h.host⟩
  unfold Flow.obs
  rw [h1, List.filterMap_append]
  have h3 : evs.filterMap p = [] := by
    rw [List.filterMap_eq_nil_iff]
    intro x hx
    obtain ⟨ob, _, h4 | h4⟩ := h2 x hx
    · rw [h4]; exact hp.eval _ _
    · rw [h4]; exact hp.post _ _
  rw [h3, List.nil_append]

end Hush

/-- Only instances started by `k` are added, nothing is observed of them yet; of the existing instances, nothing new is observed,
except possibly of `x`. -/
structure Silent (p : Ev → Option β) (x k : Option Nat) (e e' : Eng) : Prop where
  len : e.insts.length ≤ e'.insts.length
  old : ∀ (j : Nat) (I : Inst), e.insts[j]? = some I → ∃ I', e'.insts[j]? = some I' ∧ I'.defn = I.defn ∧ I'.host = I.host ∧
    (x ≠ some j → obs p I' = obs p I)
  fresh : ∀ (j : Nat) (I' : Inst), e.insts.length ≤ j → e'.insts[j]? = some I' → obs p I' = [] ∧ ∃ i o, k = some i ∧ I'.host = some (i, o)

namespace Silent

variable {p : Ev → Option β} {x k : Option Nat}

theorem refl (e : Eng) : Silent p x k e e :=
  ⟨Nat.le_refl _, fun j I h => ⟨I, h, rfl, rfl, fun _ => rfl⟩, fun j I' h1 h2 => by
    rw [List.getElem?_eq_none h1] at h2; cases h2⟩

theorem ctl {e e' : Eng} (h : e'.insts = e.insts) : Silent p x k e e' := by
  have := refl (p := p) (x := x) (k := k) e
  exact ⟨by rw [h]; exact Nat.le_refl _, by rw [h]; exact this.old, by rw [h]; exact this.fresh⟩

theorem trans {e f g : Eng} (h : Silent p x k e f) (h' : Silent p x k f g) (hx : ∀ j, x = some j → j < e.insts.length) :
    Silent p x k e g := by
  refine ⟨Nat.le_trans h.len h'.len, fun j I hI => ?_, fun j J hj hJ => ?_⟩
  · obtain ⟨I1, a1, a2, a3, a4⟩ := h.old j I hI
    obtain ⟨I2, b1, b2, b3, b4⟩ := h'.old j I1 a1
    exact ⟨I2, b1, b2.trans a2, b3.trans a3, fun hx => (b4 hx).trans (a4 hx)⟩
  · by_cases hl : j < f.insts.length
    · obtain ⟨I1, hI1⟩ : ∃ I1, f.insts[j]? = some I1 := ⟨_, List.getElem?_eq_getElem hl⟩
      obtain ⟨I2, b1, b2, b3, b4⟩ := h'.old j I1 hI1
      obtain ⟨c1, i, o, c2, c3⟩ := h.fresh j I1 hj hI1
      rw [hJ] at b1
      cases b1
      refine ⟨(b4 fun h => ?_).trans c1, i, o, c2, b3.trans c3⟩
      exact absurd (hx j h) (by omega)
    · exact h'.fresh j J (by omega) hJ

theorem trans' {e f g : Eng} (h : Silent p none k e f) (h' : Silent p none k f g) : Silent p none k e g :=
  h.trans h' fun _ h => nomatch h

theorem mod {e : Eng} {i : Nat} (f : Inst → Inst) (hf : ∀ I, e.insts[i]? = some I → Hush p I (f I)) : Silent p x k e (e.modI i f) := by
  refine ⟨by rw [Eng.modI_length]; exact Nat.le_refl _, fun j I hI => ?_, fun j J hj hJ => ?_⟩
  · rw [Eng.modI_getElem?]
    split
    · rename_i hij
      subst hij
      rw [hI]
      have := hf I hI
      exact ⟨f I, rfl, this.defn, this.host, fun _ => this.obs⟩
    · exact ⟨I, hI, rfl, rfl, fun _ => rfl⟩
  · rw [List.getElem?_eq_none (by rw [Eng.modI_length]; exact hj)] at hJ
    cases hJ

/-- A change of the instance that is not looked at. -/
theorem modX {e : Eng} {i : Nat} (f : Inst → Inst) (hf : ∀ I, e.insts[i]? = some I → (f I).defn = I.defn ∧ (f I).host = I.host) :
    Silent p (some i) k e (e.modI i f) := by
  refine ⟨by rw [Eng.modI_length]; exact Nat.le_refl _, fun j I hI => ?_, fun j J hj hJ => ?_⟩
  · rw [Eng.modI_getElem?]
    split
    · rename_i hij
      subst hij
      rw [hI]
      have := hf I hI
      exact ⟨f I, rfl, this.1, this.2, fun h => absurd rfl h⟩
    · exact ⟨I, hI, rfl, rfl, fun _ => rfl⟩
  · rw [List.getElem?_eq_none (by rw [Eng.modI_length]; exact hj)] at hJ
    cases hJ

theorem weaken {e e' : Eng} (h : Silent p none k e e') : Silent p x k e e' :=
  ⟨h.len, fun j I hI => by
    obtain ⟨I', a, b, c, d⟩ := h.old j I hI
    exact ⟨I', a, b, c, fun _ => d (nomatch ·)⟩, h.fresh⟩

theorem enterStart (hp : Heeds p) (env : Env) (i : Nat) (es : List TaskEntry) : ∀ e : Eng, Silent p none k e (Eng.enterStart env e i es) := by
  induction es with
  | nil => exact refl
  | cons y ys ih =>
    intro e
    unfold Eng.enterStart
    split
    · exact refl e
    · rename_i I hI
      have h1 : Silent p none k e (e.modI i (fun _ => (I.enterTask y.task).1)) :=
        mod _ fun J hJ => by rw [hI] at hJ; cases hJ; exact Hush.enterTask hp I _
      dsimp only
      split
      · split
        · have h2 : Silent p none k (e.modI i (fun _ => (I.enterTask y.task).1)) (Eng.schedule (e.modI i (fun _ => (I.enterTask y.task).1)) i (I.enterTask y.task).2.1) := ctl rfl
          exact (h1.trans' h2).trans' (ih _)
        · exact h1
      · exact h1.trans' (ih _)

theorem sub (hp : Heeds p) (env : Env) (e : Eng) (i o : Nat) (uri : String) (d : Def) (ins : AMap String Val) :
    Silent p none (some i) e (Eng.startInstance env (e.newEmbedded i o uri d) e.insts.length ins) := by
  have h1 : Silent p none (some i) e (e.newEmbedded i o uri d) := by
    refine ⟨by rw [Eng.newEmbedded_length]; omega, fun j I hI => ?_, fun j J hj hJ => ?_⟩
    · have hl : j < e.insts.length := (List.getElem?_eq_some_iff.mp hI).1
      exact ⟨I, by rw [Eng.newEmbedded_getElem? _ _ _ _ _ hl]; exact hI, rfl, rfl, fun _ => rfl⟩
    · by_cases hl : j = e.insts.length
      · subst hl
        rw [Eng.newEmbedded_new] at hJ
        cases hJ
        exact ⟨rfl, i, o, rfl, rfl⟩
      · rw [List.getElem?_eq_none (by rw [Eng.newEmbedded_length]; omega)] at hJ
        cases hJ
  refine h1.trans' ?_
  unfold Eng.startInstance
  split
  · exact refl _
  · rename_i I hI
    dsimp only
    refine (mod _ fun J hJ => ?_).trans' (enterStart hp env _ _ _)
    rw [hI] at hJ
    cases hJ
    exact Hush.ev (hp.flow _) rfl rfl rfl

theorem evals (hp : Heeds p) {env : Env} {i o : Nat} {s : Option String} {e e' : Eng} (h : Eng.Evals env i o s e e') :
    Silent p none (some i) e e' := by
  induction h with
  | refl e => exact refl e
  | inst e f h => exact mod f fun I hI => Hush.same hp (h I hI)
  | reply e r => exact ctl rfl
  | sub e uri d inputs _ _ _ => exact sub hp env e i o uri d inputs
  | trans _ _ ih1 ih2 => exact ih1.trans' ih2

theorem complete (hp : Heeds p) (e : Eng) (i : Nat) : Silent p none none e (e.complete i) := by
  have h1 : Silent p none none e (e.modI i (fun J => J.setFlowStatus .completed)) := mod _ fun J _ => Hush.flow hp J _
  unfold Eng.complete
  split
  · exact refl e
  · dsimp only
    split
    · exact h1
    · split
      · exact h1.trans' (ctl rfl)
      · rename_i I _ _ _ hi ho _
        have h2 : Silent p none none (e.modI i (fun J => J.setFlowStatus .completed)) ((e.modI i (fun J => J.setFlowStatus .completed)).modI hi
          (fun H => H.modO ho (fun x => { x with outputs := I.returnData, returnError := none }))) := mod _ fun J _ => Hush.of_trace rfl rfl rfl
        exact (h1.trans' h2).trans' (ctl rfl)

theorem failHost (e : Eng) (i : Nat) (err : Err) : Silent p none none e (e.failHost i err) := by
  unfold Eng.failHost
  split
  · exact refl e
  · split
    · exact refl e
    · rename_i hi ho _
      have h2 : Silent p none none e (e.modI hi (fun H => H.modO ho (fun x => { x with returnError := some err }))) :=
        mod _ fun J _ => Hush.of_trace rfl rfl rfl
      exact h2.trans' (ctl rfl)

theorem errorData (e : Eng) (i : Nat) (t : TaskId) (err : Err) : Silent p none none e (e.appendErrorData i t err) :=
  mod _ fun _ _ => Hush.of_trace rfl rfl rfl

theorem globalError (hp : Heeds p) (e : Eng) (i : Nat) (err : Err) : Silent p none none e (e.globalError i err) := by
  unfold Eng.globalError
  split
  · exact refl e
  · split
    · exact mod _ fun J _ => Hush.flow hp J _
    · dsimp only
      have h1 : Silent p none none e (e.modI i (fun J => { J with handling := true })) := mod _ fun _ _ => Hush.of_trace rfl rfl rfl
      split
      · have h2 := h1.trans' (mod (i := 0) (fun J => J.clearTasks) fun J _ => Hush.ev hp.cleared rfl rfl rfl)
        have h3 := h2.trans' (mod (i := i) (fun J => { J with trace := .ehStart :: J.trace }) fun J _ => Hush.ev hp.handler rfl rfl rfl)
        exact h3.trans' (ctl rfl)
      · have h2 := h1.trans' (mod (i := i) (fun J => J.setFlowStatus .failed) fun J _ => Hush.flow hp J _)
        split
        · exact h2.trans' (mod _ fun _ _ => Hush.of_trace rfl rfl rfl)
        · exact h2.trans' (failHost _ _ _)

theorem finishTask (hp : Heeds p) (e : Eng) (i : Nat) (t : TaskRef) (b : Bool) (es : List TaskEntry) (rest : List Frame) :
    Silent p none none e (e.finishTask i t b es rest) := by
  unfold Eng.finishTask
  split
  · exact refl e
  · split
    · exact (complete hp e i).trans' (ctl rfl)
    · exact ctl rfl

theorem taskSkipped (hp : Heeds p) (e : Eng) (i o : Nat) (rest : List Frame) : Silent p none none e (e.taskSkipped i o rest) := by
  unfold Eng.taskSkipped
  split
  · exact refl e
  · rename_i I hI
    split
    · exact ctl rfl
    · rename_i ob hob
      have h1 : Silent p none none e (e.modI i (fun _ => (I.skipTask o ob.task).1)) := mod _ fun J hJ => by
        rw [hI] at hJ; cases hJ; exact Hush.skipTask hp I o _
      exact h1.trans' (finishTask hp _ _ _ _ _ _)

/-- Steps that continue the functions on the stack. -/
theorem ctlStep (hp : Heeds p) (env : Env) {e : Eng} (h : e.stack ≠ []) : Silent p none none e (e.step env) := by
  unfold Eng.step
  split
  · rename_i h'; exact absurd h' h
  · exact ctl rfl
  · rename_i y ys rest _
    unfold Eng.enterEntry
    split
    · exact ctl rfl
    · rename_i I hI
      have h1 : Silent p none none e (e.modI e.cur (fun _ => (I.enterTask y.task).1)) := mod _ fun J hJ => by
        rw [hI] at hJ; cases hJ; exact Hush.enterTask hp I _
      dsimp only
      split
      · exact h1.trans' (ctl rfl)
      · split
        · exact h1.trans' (ctl rfl)
        · exact h1.trans' (ctl rfl)
      · exact h1.trans' (taskSkipped hp _ _ _ _)
  · exact (mod _ fun J _ => Hush.release hp J _).trans' (ctl rfl)

end Silent

/-! ### Finished tasks -/

variable {p : Ev → Option β}

theorem obs_rows (rs : List (LinkDef × LinkStatus × Nat)) : ∀ I : Inst,
    obs p (I.applyRows rs) = (rs.filterMap (fun r => p (.linkStatus r.1.id r.2.1))).reverse ++ obs p I := by
  induction rs with
  | nil => intro I; rfl
  | cons r rs ih =>
    intro I
    have h1 : obs p (I.setLink r.1.id r.2.1) = (p (.linkStatus r.1.id r.2.1)).toList ++ obs p I := by
      unfold obs Inst.setLink
      dsimp only
      rw [List.filterMap_cons]
      cases p (.linkStatus r.1.id r.2.1) <;> rfl
    have h2 := ih (I.setLink r.1.id r.2.1)
    rw [h1] at h2
    refine Eq.trans h2 ?_
    rw [List.filterMap_cons]
    cases p (.linkStatus r.1.id r.2.1) <;> simp

theorem obs_status {I : Inst} {o : Nat} {ob : Obj} (h : I.objs[o]? = some ob) (s : TaskStatus) :
    obs p (I.setTaskStatus o s) = (p (.taskStatus o ob.task s)).toList ++ obs p I := by
  unfold obs Inst.setTaskStatus
  rw [h]
  dsimp only
  rw [List.filterMap_cons]
  cases p (.taskStatus o ob.task s) <;> rfl

theorem findLinks_objs (ls : List LinkDef) : ∀ I : Inst, (I.findLinks ls).objs = I.objs := by
  induction ls with
  | nil => intro I; rfl
  | cons l ls ih =>
    intro I
    refine (ih (I.findLink l.id)).trans ?_
    unfold Inst.findLink
    split <;> rfl

theorem applyRows_const (rs : List (LinkDef × LinkStatus × Nat)) : ∀ I : Inst,
    (I.applyRows rs).defn = I.defn ∧ (I.applyRows rs).host = I.host := by
  induction rs with
  | nil => intro I; exact ⟨rfl, rfl⟩
  | cons r rs ih => intro I; exact ih (I.setLink r.1.id r.2.1)

theorem setTaskStatus_const (I : Inst) (o : Nat) (s : TaskStatus) :
    (I.setTaskStatus o s).defn = I.defn ∧ (I.setTaskStatus o s).host = I.host := by
  unfold Inst.setTaskStatus
  split <;> exact ⟨rfl, rfl⟩

/-- What a completed task leaves in the trace. -/
theorem obs_done (hp : Heeds p) (env : Env) (e : Eng) (i : Nat) {I : Inst} {o : Nat} {ob : Obj} (hob : I.objs[o]? = some ob)
    {t : TaskRef} (ht : ob.task = t) :
    obs p (I.doneTask env.prio (env.link e i) o t).1 =
      ((Eng.doneRowsAny env e i I t).filterMap (fun r => p (.linkStatus r.1.id r.2.1))).reverse ++
        ((p (.taskStatus o t .done)).toList ++ obs p I) ∧
    (I.doneTask env.prio (env.link e i) o t).1.defn = I.defn ∧ (I.doneTask env.prio (env.link e i) o t).1.host = I.host := by
  subst ht
  have h0 := Hush.findLinks hp (I.defn.toLinks ob.task) I
  have hob' : (I.findLinks (I.defn.toLinks ob.task)).objs[o]? = some ob := by rw [findLinks_objs]; exact hob
  have h1 := obs_status (p := p) hob' .done
  rw [h0.obs] at h1
  have h2 := setTaskStatus_const (I.findLinks (I.defn.toLinks ob.task)) o .done
  rw [h0.defn, h0.host] at h2
  unfold Inst.doneTask Eng.doneRowsAny
  dsimp only
  split <;> dsimp only
  · rename_i m rows hx
    refine ⟨?_, (applyRows_const rows _).1.trans h2.1, (applyRows_const rows _).2.trans h2.2⟩
    rw [obs_rows, h1, hx]
  · rename_i rows hx
    refine ⟨?_, (applyRows_const rows _).1.trans h2.1, (applyRows_const rows _).2.trans h2.2⟩
    rw [obs_rows, h1, hx]

/-- What a failed task leaves in the trace. -/
theorem obs_error (hp : Heeds p) {I : Inst} {o : Nat} {ob : Obj} (hob : I.objs[o]? = some ob) {t : TaskRef} (ht : ob.task = t) :
    obs p (I.errorTask o t).1 =
      (((errorRows (I.defn.toLinks t)).getD []).filterMap (fun r => p (.linkStatus r.1.id r.2.1))).reverse ++
        ((p (.taskStatus o t .failed)).toList ++ obs p I) ∧
    (I.errorTask o t).1.defn = I.defn ∧ (I.errorTask o t).1.host = I.host := by
  subst ht
  have h1 := obs_status (p := p) hob .failed
  have h0 := Hush.findLinks hp (I.defn.toLinks ob.task) (I.setTaskStatus o .failed)
  have h2 := setTaskStatus_const I o .failed
  unfold Inst.errorTask
  dsimp only
  cases errorRows (I.defn.toLinks ob.task) with
  | none => exact ⟨by dsimp only; rw [h0.obs, h1]; rfl, h0.defn.trans h2.1, h0.host.trans h2.2⟩
  | some rows =>
    refine ⟨?_, (applyRows_const rows _).1.trans (h0.defn.trans h2.1), (applyRows_const rows _).2.trans (h0.host.trans h2.2)⟩
    dsimp only
    rw [obs_rows, h0.obs, h1]
    rfl

/-- `q` reads from the entries what `p` reads from the traces. -/
structure Reads (p : Ev → Option β) (q : Nat → Cov → Option β) : Prop where
  heeds : Heeds p
  act : ∀ i o t s f b, (s = .done ∨ s = .failed) → q i (.activity i f t.id b) = p (.taskStatus o t s)
  link : ∀ i f l b, q i (.link i f l b) = p (.linkStatus l.id .true)
  other : ∀ i j f t b, i ≠ j → q i (.activity j f t b) = none
  otherLink : ∀ i j f l b, i ≠ j → q i (.link j f l b) = none
  sub : ∀ i h f a s, q i (.subflow h f a s) = none
  one : (∀ o t s, p (.taskStatus o t s) = none) ∨ ∀ l s, p (.linkStatus l s) = none

theorem reads_link : Reads linkFollowed reportedLink where
  heeds := heeds_link
  act := fun _ _ _ _ _ _ _ => rfl
  link := fun _ _ _ _ => if_pos rfl
  other := fun _ _ _ _ _ _ => rfl
  otherLink := fun _ _ _ _ _ h => if_neg (fun h' => h h'.symm)
  sub := fun _ _ _ _ _ => rfl
  one := .inl fun _ _ _ => rfl

theorem reads_task : Reads taskFinished activityOf where
  heeds := heeds_task
  act := fun _ _ _ _ _ _ h => by rcases h with rfl | rfl <;> exact if_pos rfl
  link := fun _ _ _ _ => rfl
  other := fun _ _ _ _ _ h => if_neg (fun h' => h h'.symm)
  otherLink := fun _ _ _ _ _ _ => rfl
  sub := fun _ _ _ _ _ => rfl
  one := .inr fun _ _ => rfl

variable {q : Nat → Cov → Option β}

theorem reads_rows (hq : Reads p q) (i : Nat) (I : Inst) (rows : List (LinkDef × LinkStatus × Nat)) :
    (Eng.covLinks i I rows).filterMap (q i) = rows.filterMap (fun r => p (.linkStatus r.1.id r.2.1)) := by
  unfold Eng.covLinks
  induction rows with
  | nil => rfl
  | cons r rows ih =>
    by_cases h : r.2.1 = .true
    · rw [List.filter_cons_of_pos (by simpa using h), List.map_cons, List.filterMap_cons, List.filterMap_cons, ih, hq.link, h]
    · rw [List.filter_cons_of_neg (by simpa using h), List.filterMap_cons, hq.heeds.link _ _ h, ih]

theorem reads_rows_other (hq : Reads p q) {i j : Nat} (hij : j ≠ i) (I : Inst) (rows : List (LinkDef × LinkStatus × Nat)) :
    (Eng.covLinks i I rows).filterMap (q j) = [] := by
  rw [List.filterMap_eq_nil_iff]
  intro a ha
  unfold Eng.covLinks at ha
  obtain ⟨r, _, rfl⟩ := List.mem_map.mp ha
  exact hq.otherLink _ _ _ _ _ hij

namespace Eng

variable {env : Env}

/-- Handling the result of an evaluation: the entries correspond to the trace. -/
theorem handle_reads (hq : Reads p q) {e : Eng} {i o : Nat} {I : Inst} (hI : e.insts[i]? = some I) {ob : Obj} (hob : I.objs[o]? = some ob)
    {t : TaskRef} (ht : ob.task = t) (name : String) {r : EvalOut} (hr : r ≠ .res .fail) :
    ∃ I1, Silent p none none (e.modI i (fun _ => I1)) (handleResult env e i o t name r) ∧ I1.defn = I.defn ∧ I1.host = I.host ∧
      (obs p I1).reverse = (obs p I).reverse ++ (covResult env e i t r).filterMap (q i) := by
  have hp := hq.heeds
  have quiet : ∀ {e' : Eng}, Silent p none none e e' → Silent p none none (e.modI i (fun _ => I)) e' := by
    intro e' h
    have : Silent p none none (e.modI i (fun _ => I)) e := by
      refine ⟨by rw [modI_length]; exact Nat.le_refl _, fun j J hJ => ?_, fun j J hj hJ => ?_⟩
      · rw [modI_getElem?] at hJ
        split at hJ
        · rename_i hij; subst hij; rw [hI] at hJ; cases hJ; exact ⟨_, hI, rfl, rfl, fun _ => rfl⟩
        · exact ⟨_, hJ, rfl, rfl, fun _ => rfl⟩
      · rw [modI_length] at hj; rw [List.getElem?_eq_none hj] at hJ; cases hJ
    exact this.trans' h
  have doneCase : ∃ I1, Silent p none none (e.modI i (fun _ => I1)) (taskDone env e i o t) ∧ I1.defn = I.defn ∧ I1.host = I.host ∧
      (obs p I1).reverse = (obs p I).reverse ++ (covDone env e i t).filterMap (q i) := by
    obtain ⟨h1, h2, h3⟩ := obs_done hp env e i hob ht
    refine ⟨_, ?_, h2, h3, ?_⟩
    · unfold taskDone
      rw [hI]
      dsimp only
      generalize I.doneTask env.prio (env.link e i) o t = x
      obtain ⟨I1, x⟩ := x
      cases x with
      | error m => exact (Silent.errorData _ _ _ _).trans' (Silent.globalError hp _ _ _)
      | ok es => exact Silent.finishTask hp _ _ _ _ _ _
    · rw [h1]
      unfold covDone
      rw [hI]
      dsimp only
      rw [List.filterMap_append, reads_rows hq]
      have h4 : List.filterMap (q i) [e.covActivity i I t] = (p (.taskStatus o t .done)).toList := by
        rw [List.filterMap_cons, covActivity, hq.act i o t .done _ _ (.inl rfl)]
        cases p (.taskStatus o t .done) <;> rfl
      rw [h4]
      rcases hq.one with h5 | h5
      · simp [h5]
      · have h6 : (doneRowsAny env e i I t).filterMap (fun r => p (.linkStatus r.1.id r.2.1)) = [] := by
          rw [List.filterMap_eq_nil_iff]; exact fun r _ => h5 _ _
        rw [h6]
        cases p (.taskStatus o t .done) <;> simp
  have quiet' : ∀ {e' : Eng}, Silent p none none e e' → covResult env e i t r = [] →
      ∃ I1, Silent p none none (e.modI i (fun _ => I1)) e' ∧ I1.defn = I.defn ∧ I1.host = I.host ∧
      (obs p I1).reverse = (obs p I).reverse ++ (covResult env e i t r).filterMap (q i) := by
    intro e' h hc
    exact ⟨I, quiet h, rfl, rfl, by rw [hc]; simp⟩
  cases r with
  | err er =>
    obtain ⟨h1, h2, h3⟩ := obs_error hp hob ht
    refine ⟨_, ?_, h2, h3, ?_⟩
    · unfold handleResult taskError
      dsimp only
      rw [hI]
      dsimp only
      generalize I.errorTask o t = x
      obtain ⟨I1, x⟩ := x
      cases x with
      | some es =>
        dsimp only
        have h4 : e.modI i (fun _ => I1.setValue ("_E." ++ t.id) (errorObj t.id er)) =
            (e.modI i (fun _ => I1)).modI i (fun J => J.setValue ("_E." ++ t.id) (errorObj t.id er)) := by
          simp only [modI, List.modify_modify_eq]; rfl
        rw [h4]
        have h5 : Silent p none none (e.modI i (fun _ => I1)) ((e.modI i (fun _ => I1)).modI i (fun J => J.setValue ("_E." ++ t.id) (errorObj t.id er))) :=
          Silent.mod _ fun _ _ => Hush.of_trace rfl rfl rfl
        exact h5.trans' (.ctl rfl)
      | none =>
        dsimp only
        split
        · have h5 : Silent p none none (e.modI i (fun _ => I1)) ((e.modI i (fun _ => I1)).modI i (fun J => J.setFlowStatus .failed)) :=
            Silent.mod _ fun J _ => Hush.flow hp J _
          split
          · exact h5.trans' (.errorData _ _ _ _)
          · exact h5.trans' (.failHost _ _ _)
        · exact (Silent.errorData _ _ _ _).trans' (Silent.globalError hp _ _ _)
    · rw [h1]
      unfold covResult covError
      rw [hI]
      dsimp only
      rw [List.filterMap_cons, reads_rows hq, covActivity, hq.act i o t .failed _ _ (.inr rfl)]
      cases p (.taskStatus o t .failed) <;> simp
  | panic m =>
    refine quiet' ?_ rfl
    unfold handleResult
    dsimp only
    rw [hI]
    dsimp only
    split
    · exact .refl e
    · exact (Silent.errorData _ _ _ _).trans' (Silent.globalError hp _ _ _)
  | res x =>
    cases x with
    | fail => exact absurd rfl hr
    | done => exact doneCase
    | skip => exact doneCase
    | wait => exact quiet' (.mod _ fun J _ => Hush.status hp J o (nomatch ·) (nomatch ·)) rfl
    | again => exact quiet' (.ctl rfl) rfl

/-- The entries about other instances. -/
theorem covResult_other (hq : Reads p q) (e : Eng) {i j : Nat} (hij : j ≠ i) (t : TaskRef) (r : EvalOut) :
    (covResult env e i t r).filterMap (q j) = [] := by
  have h1 : (covDone env e i t).filterMap (q j) = [] := by
    unfold covDone
    split
    · rfl
    · rw [List.filterMap_append, reads_rows_other hq hij, List.filterMap_cons, covActivity, hq.other _ _ _ _ _ hij]; rfl
  have h2 : (covError e i t).filterMap (q j) = [] := by
    unfold covError
    split
    · rfl
    · rw [List.filterMap_cons, covActivity, hq.other _ _ _ _ _ hij]; exact reads_rows_other hq hij _ _
  unfold covResult
  split
  · exact h2
  · exact h1
  · exact h1
  · rfl

theorem covSubs_none (hq : Reads p q) (e e' : Eng) (i j : Nat) (flow name : String) :
    (covSubs e e' i flow name).filterMap (q j) = [] := by
  rw [List.filterMap_eq_nil_iff]
  intro a ha
  unfold covSubs at ha
  obtain ⟨J, _, rfl⟩ := List.mem_map.mp ha
  exact hq.sub _ _ _ _ _

end Eng

end Flow
