import Verif.Proofs.HostedEval

/-
The execution of a task keeps the invariant of `Verif.Proofs.Graph` for its flow instance, as long as no error reaches the
flow and no activity ends it.
-/

namespace Flow.GraphM
open Spec Eng

/-- The frames of the stack that belong to the abstract stack. -/
inductive Frames : List Frame → List (TaskId × List TaskEntry) → Prop
  | nil : Frames [] []
  | release {s : List Frame} {k : List (TaskId × List TaskEntry)} {u : TaskId} (h : Frames s k) : Frames (.release ⟨false, u⟩ :: s) ((u, []) :: k)
  | enter {s : List Frame} {k : List (TaskId × List TaskEntry)} {u : TaskId} {es : List TaskEntry} (h : Frames s k) :
      Frames (.enter es :: .release ⟨false, u⟩ :: s) ((u, es) :: k)

theorem Frames.nil_iff {k : List (TaskId × List TaskEntry)} (h : Frames [] k) : k = [] := by cases h; rfl

/-- Tasks whose activity is evaluated once per execution. -/
def Single (g : Graph) (t : TaskId) : Prop := ∃ td ∈ g.tasks, td.id = t ∧ td.kind = .basic ∧ td.retry = false

/-- Tasks that start other flows. -/
def SubTask (g : Graph) (t : TaskId) : Prop := ∃ td ∈ g.tasks, td.id = t ∧ td.act.sub? ≠ none

/-- What is known about the load of a task that waits: at most one work item or running subflow, and this only if it starts
other flows; then not nothing, provided that `full`. -/
def Waits (g : Graph) (full : Prop) (t : TaskId) (n : Nat) : Prop := n ≤ 2 ∧ (n ≠ 0 → SubTask g t) ∧ (full → SubTask g t → n ≠ 0)

/-- What is known about the decision of a link. -/
def Fact (env : Env) (g : Graph) (i : Nat) (s : TaskStatus) (l : LinkDef) (d : LinkStatus) : Prop :=
  (s = .done → ∃ (e : Eng) (k : Nat), (g.toLinks l.src)[k]? = some l ∧ ¬ exprFails (g.toLinks l.src) (env.link e i) ∧
    (d = .true ↔ followedAfterSuccess (g.toLinks l.src) (env.link e i) k)) ∧
  (s = .failed → (d = .true ↔ l.type = .error))

variable {env : Env} {i o n : Nat} {W : TaskId → Nat → Prop} {g : Graph} {e : Eng} {I I1 : Inst} {cnt : Nat → Nat} {G : GS} {u : TaskId}

theorem tasks_inj (wf : WellFormed g) {a b : TaskDef} (ha : a ∈ g.tasks) (hb : b ∈ g.tasks) (h : a.id = b.id) : a = b := by
  have key : ∀ ts : List TaskDef, (ts.map (·.id)).Nodup → a ∈ ts → b ∈ ts → a = b := by
    intro ts
    induction ts with
    | nil => intro _ h1; simp at h1
    | cons c cs ih =>
      intro hn h1 h2
      rw [List.map_cons, List.nodup_cons] at hn
      rcases List.mem_cons.1 h1 with rfl | h1'
      · rcases List.mem_cons.1 h2 with rfl | h2
        · rfl
        · exact absurd (List.mem_map.2 ⟨b, h2, h.symm⟩) hn.1
      · rcases List.mem_cons.1 h2 with rfl | h2
        · exact absurd (List.mem_map.2 ⟨a, h1', h⟩) hn.1
        · exact ih hn.2 h1' h2
  exact key _ wf.tasks ha hb

/-- An evaluation without subflow creates no instance and no work. -/
theorem evals_none {e' : Eng} (h : Evals env i o none e e') : e'.queue = e.queue ∧ e'.insts.length = e.insts.length := by
  generalize hs : (none : Option String) = s at h
  induction h with
  | refl e => exact ⟨rfl, rfl⟩
  | inst e f h => exact ⟨rfl, modI_length ..⟩
  | reply e r => exact ⟨rfl, rfl⟩
  | sub e uri d inputs h _ _ => rw [h] at hs; cases hs
  | trans _ _ ih1 ih2 => exact ⟨ih2.1.trans ih1.1, ih2.2.trans ih1.2⟩

theorem evalKind_single {ob : Obj} {td : TaskDef} (ho : e.obj? i o = some ob) (htd : e.taskDef? i ob.task = some td)
    (hk : td.kind = .basic) (hr : td.retry = false) :
    callCount (e.evalKind env i o td).1 i ≤ callCount e i + 1 ∧ (e.evalKind env i o td).2 ≠ .res .again := by
  unfold Eng.evalKind
  rw [hk]
  dsimp only
  unfold Eng.evalBasic
  rw [evalActivity_noRetry ho htd hr]
  have := evalOnce_count (env := env) (i := i) (o := o) e
  split <;> rename_i hx <;> rw [hx] at this <;> exact ⟨this, fun hc => nomatch hc⟩

theorem Born.load {e' : Eng} (h : Born i o false e e') : loadOf e' i = loadOf e i := by
  funext p; unfold loadOf; rw [h.cnt, h.liveEq]

/-- The completion of a flow instance, seen by itself. -/
theorem complete_own (hI : e.insts[i]? = some I) (hh : ∀ h o, I.host = some (h, o) → h ≠ i) :
    (e.complete i).insts[i]? = some (I.setFlowStatus .completed) ∧ loadOf (e.complete i) i = loadOf e i := by
  have h1 : Born i 0 false e (e.modI i (fun J => J.setFlowStatus .completed)) := .modI fun J hJ => by
    rw [hI] at hJ; cases hJ
    exact ⟨rfl, Or.inr fun p hc => hh i p hc rfl⟩
  unfold Eng.complete
  rw [hI]
  dsimp only
  split
  · exact ⟨modI_self hI _, h1.load⟩
  · split
    · exact ⟨modI_self hI _, h1.load⟩
    · rename_i hi ho hho
      have hne := hh hi ho hho
      have key : ∀ f : Inst → Inst, (∀ J, (f J).host = J.host ∧ endings (f J) = endings J) →
          loadOf (((e.modI i (fun J => J.setFlowStatus .completed)).modI hi f).schedule hi ho) i = loadOf e i := fun f hf =>
        ((h1.trans (.modI fun J _ => ⟨(hf J).1, Or.inl (hf J).2⟩)).trans (.schedule hne ho)).load
      refine ⟨?_, key _ (fun _ => ⟨rfl, rfl⟩)⟩
      unfold Eng.schedule
      dsimp only
      rw [modI_ne hne]; exact modI_self hI _

theorem globalError_handling (hI : e.insts[i]? = some I) (err : Err) :
    ∃ J, (e.globalError i err).insts[i]? = some J ∧ J.handling = true := by
  have keep : ∀ (e : Eng) (J : Inst) (j : Nat) (f : Inst → Inst), (∀ K, (f K).handling = K.handling) → e.insts[i]? = some J → J.handling = true →
      ∃ K, (e.modI j f).insts[i]? = some K ∧ K.handling = true := by
    intro e J j f hf hJ hh
    by_cases hj : j = i
    · subst hj; exact ⟨f J, modI_self hJ _, by rw [hf]; exact hh⟩
    · exact ⟨J, by rw [modI_ne hj]; exact hJ, hh⟩
  unfold Eng.globalError
  rw [hI]
  dsimp only
  split
  · rename_i hh; exact keep e I i (fun J => J.setFlowStatus .failed) (fun _ => rfl) hI hh
  · have h1 : (e.modI i (fun J => { J with handling := true })).insts[i]? = some { I with handling := true } := modI_self hI _
    split
    · obtain ⟨J, h2, h3⟩ := keep _ _ 0 (fun J => J.clearTasks) (fun _ => rfl) h1 rfl
      exact keep _ J i (fun J => { J with trace := .ehStart :: J.trace }) (fun _ => rfl) h2 h3
    · obtain ⟨J, h2, h3⟩ := keep _ _ i (fun J => J.setFlowStatus .failed) (fun _ => rfl) h1 rfl
      split
      · exact keep _ J 0 _ (fun _ => rfl) h2 h3
      · unfold Eng.failHost
        rw [h2]
        dsimp only
        split
        · exact ⟨J, h2, h3⟩
        · rename_i hi ho _
          exact keep _ J hi (fun H => H.modO ho (fun x => { x with returnError := some err })) (fun _ => rfl) h2 h3

/-- The result of `finishTask` for the instance itself. -/
theorem finishTask_own {t : TaskRef} {es : List TaskEntry} {rest : List Frame} {ntf : Bool} (hI : e.insts[i]? = some I)
    (hh : ∀ h o, I.host = some (h, o) → h ≠ i) (hf : I.force = false) (he : ntf = true → es = []) :
    (e.finishTask i t ntf es rest).insts[i]? = some (if (ntf && I.allDone) = true then I.setFlowStatus .completed else I) ∧
      loadOf (e.finishTask i t ntf es rest) i = loadOf e i ∧ (e.finishTask i t ntf es rest).cur = i ∧
      (((ntf && I.allDone) = true ∧ es = [] ∧ (e.finishTask i t ntf es rest).stack = .release t :: rest) ∨
        (e.finishTask i t ntf es rest).stack = .enter es :: .release t :: rest) := by
  unfold Eng.finishTask
  rw [hI]
  dsimp only
  rw [hf, Bool.or_false]
  by_cases hc : (ntf && I.allDone) = true
  · rw [if_pos hc, if_pos hc]
    obtain ⟨h1, h2⟩ := complete_own hI hh
    refine ⟨h1, h2, rfl, Or.inl ⟨hc, he ?_, rfl⟩⟩
    rw [Bool.and_eq_true] at hc; exact hc.1
  · rw [if_neg hc, if_neg hc]
    exact ⟨hI, rfl, rfl, Or.inr rfl⟩

theorem Frames.finish {t : TaskRef} {es : List TaskEntry} {rest : List Frame} {k : List (TaskId × List TaskEntry)} {s : List Frame} {c : Prop}
    (h : Frames rest k) (ht : t.eh = false) (hs : (c ∧ es = [] ∧ s = .release t :: rest) ∨ s = .enter es :: .release t :: rest) :
    Frames s ((t.id, es) :: k) := by
  obtain ⟨eh, t⟩ := t
  dsimp only at ht
  subst ht
  rcases hs with ⟨_, rfl, rfl⟩ | rfl
  · exact .release h
  · exact .enter h

theorem fact_done (wf : WellFormed g) {prio : Bool} {rows : List (LinkDef × LinkStatus × Nat)}
    (h : doneRows prio (env.link e i) (g.toLinks u) = .ok rows) : ∀ r ∈ rows, Fact env g i .done r.1 r.2.1 := by
  intro r hr
  obtain ⟨h1, h2, _, h3⟩ := doneRows_rowsOK h
  have hsrc := (h1.mem hr).2
  have hm : r.1 ∈ g.toLinks u := by rw [← h1.links]; exact List.mem_map.2 ⟨r, hr, rfl⟩
  obtain ⟨k, hk⟩ := List.getElem?_of_mem hm
  obtain ⟨r', hr', h4, h5, _⟩ := h3 k r.1 hk
  have h6 : r'.2.1 = r.2.1 := by
    have a1 := SimI.decRows_mem (d := fun _ => .unset) (h1.nodup wf) hr
    have a2 := SimI.decRows_mem (d := fun _ => .unset) (h1.nodup wf) hr'
    rw [h4, a1] at a2; exact a2.symm
  rw [h6] at h5
  exact ⟨fun _ => ⟨e, k, by rw [hsrc]; exact hk, by rw [hsrc]; exact h2, by rw [hsrc]; exact h5⟩, fun hc => nomatch hc⟩

theorem fact_failed (l : LinkDef) : Fact env g i .failed l (if l.type = .error then .true else .false) := by
  refine ⟨(fun hc => nomatch hc), fun _ => ?_⟩
  by_cases h : l.type = .error
  · rw [if_pos h]; exact ⟨fun _ => h, fun _ => rfl⟩
  · rw [if_neg h]; exact ⟨(fun hc => nomatch hc), fun hc => absurd hc h⟩

/-- What is claimed about the state after a step of instance `i`. -/
def Post (env : Env) (g : Graph) (i : Nat) (W : TaskId → Nat → Prop) (e' : Eng) (R : GS → Prop) : Prop :=
  ∀ I', e'.insts[i]? = some I' → I'.handling = false → I'.force = false →
    ∃ G', IS g (Single g) (Fact env g i) W I' (loadOf e' i) G' ∧ Frames (if e'.cur = i then e'.stack else []) G'.stk ∧ R G'

/-- The number of steps that the frames of the stack take if no task is skipped. -/
def ssize : List Frame → Nat
  | [] => 0
  | .enter es :: s => es.length + 1 + ssize s
  | .release _ :: s => 1 + ssize s

/-- The task is not to be evaluated again: it is finished or waits. -/
def Settled (s : TaskStatus) : Prop := 30 ≤ s.code

instance (s : TaskStatus) : Decidable (Settled s) := inferInstanceAs (Decidable (_ ≤ _))

/-- How often the end of the flow is reported when task `u` gets the status `s`. -/
def reports (g : Graph) (u : TaskId) (s : TaskStatus) : Nat := if Fin s ∧ g.toLinks u = [] then 1 else 0

theorem finish_endings {g : Graph} {u : TaskId} {n : Nat} {J : Inst} {s : TaskStatus} (he : endings J = n) (hs : Fin s) (b : Bool) :
    endings (if (decide ((g.toLinks u).length = 0) && b) = true then J.setFlowStatus .completed else J) ≤ n + reports g u s := by
  by_cases hx : g.toLinks u = []
  · have hr : reports g u s = 1 := if_pos ⟨hs, hx⟩
    rw [hr]
    split
    · rw [Sees.endings_status (Or.inl rfl), he]; omega
    · omega
  · rw [if_neg]
    · omega
    · rw [Bool.and_eq_true, decide_eq_true_eq, List.length_eq_zero_iff]; exact fun hc => hx hc.1

/-- The task `u` is finished with status `s` and its successors are to be entered, or it waits; `n` is how often the end was reported
before. -/
def FinishesAs (g : Graph) (i : Nat) (n : Nat) (G : GS) (u : TaskId) (s : TaskStatus) (e' : Eng) (G' : GS) : Prop :=
  Settled s ∧ G'.st = upd G.st u s ∧ (e'.stack = [] ∨ e'.cur = i) ∧ ssize e'.stack ≤ g.links.length + 2 ∧
    (s = .waiting → G.st u = .waiting → ¬ Single g u) ∧ ∀ I', e'.insts[i]? = some I' → endings I' ≤ n + reports g u s

/-- The same with some status. -/
def Finishes (g : Graph) (i : Nat) (n : Nat) (G : GS) (u : TaskId) (e' : Eng) (G' : GS) : Prop := ∃ s, FinishesAs g i n G u s e' G'

theorem toLinks_length (g : Graph) (u : TaskId) : (g.toLinks u).length ≤ g.links.length := List.length_filter_le ..

theorem ssize_finish {t : TaskRef} {es : List TaskEntry} {rest : List Frame} {s : List Frame} {c : Prop}
    (hs : (c ∧ es = [] ∧ s = .release t :: rest) ∨ s = .enter es :: .release t :: rest) : ssize s ≤ es.length + 2 + ssize rest := by
  rcases hs with ⟨_, rfl, rfl⟩ | rfl
  · simp only [ssize, List.length_nil]; omega
  · simp only [ssize]; omega

theorem Post.globalError (hI : e.insts[i]? = some I) (err : Err) {R : GS → Prop} : Post env g i W (e.globalError i err) R := by
  intro I' hI' hh _
  obtain ⟨J, hJ, h1⟩ := globalError_handling hI err
  rw [hJ] at hI'; cases hI'; rw [h1] at hh; cases hh

variable {s0 : TaskStatus} {e1 : Eng}

/-- A task is done. -/
theorem own_done (h : IS g (Single g) (Fact env g i) W I cnt G) (wf : WellFormed g) (os : OrderSafe g) (hs : G.stk = []) (ho : G.obj u = some o)
    (hu : Live (G.st u)) (hI1 : e1.insts[i]? = some I1) (hsim : SimI I1 { G with st := upd G.st u s0, ex := upd G.ex u n })
    (h0 : ¬ Open s0 ∧ s0 ≠ .skipped) (hd : I1.defn = I.defn) (ht : I1.tasks = I.tasks) (hn : Single g u → n ≤ 1) (hc : loadOf e1 i = upd cnt o 0)
    (hh : ∀ h o, I1.host = some (h, o) → h ≠ i) : Post env g i W (e1.taskDone env i o ⟨false, u⟩)
      (FinishesAs g i (endings I1) G u .done (e1.taskDone env i o ⟨false, u⟩)) := by
  generalize hR : FinishesAs g i (endings I1) G u .done (e1.taskDone env i o ⟨false, u⟩) = R
  revert hR
  unfold Eng.taskDone
  rw [hI1]
  dsimp only
  intro hR
  have hcalm := Calm.doneTask env.prio (env.link e1 i) I1 o ⟨false, u⟩
  cases hdt : I1.doneTask env.prio (env.link e1 i) o ⟨false, u⟩ with
  | mk I2 r =>
    rw [hdt] at hcalm hR
    dsimp only at hcalm
    have hI2 : (e1.modI i (fun _ => I2)).insts[i]? = some I2 := modI_self hI1 _
    cases r with
    | error m =>
      dsimp only
      exact Post.globalError (appendErrorData_self hI2 _ _) _
    | ok es =>
      dsimp only
      intro I' hI' hnh hnf
      obtain ⟨G', h1, h2, h3, h4, h5⟩ := h.done wf os hs ho hu hsim h0 hd ht hn (fun rows hr => fact_done wf hr) hdt
      have hto : I1.defn.toLinks ⟨false, u⟩ = g.toLinks u := by rw [hd]; exact h.toLinks u
      subst hR
      dsimp only
      rw [hto] at hI' ⊢
      have hforce : I2.force = false := by
        cases hf : I2.force with
        | false => rfl
        | true =>
          exfalso
          unfold Eng.finishTask at hI'
          rw [hI2] at hI'
          dsimp only at hI'
          rw [hf, Bool.or_true, if_pos rfl] at hI'
          dsimp only at hI'
          rw [(complete_own hI2 (by rw [hcalm.host]; exact hh)).1] at hI'
          cases hI'
          have : I2.force = false := hnf
          rw [hf] at this; cases this
      obtain ⟨a1, a2, a3, a5⟩ := finishTask_own (t := ⟨false, u⟩) (es := es) (rest := []) (ntf := decide ((g.toLinks u).length = 0)) hI2
        (by rw [hcalm.host]; exact hh) hforce (fun hx => h3 (of_decide_eq_true hx))
      rw [a1] at hI'
      cases hI'
      have hend : ∀ I', ((e1.modI i (fun _ => I2)).finishTask i ⟨false, u⟩ (decide ((g.toLinks u).length = 0)) es []).insts[i]? = some I' →
          endings I' ≤ endings I1 + reports g u .done := by
        intro J hJ
        rw [a1] at hJ
        cases hJ
        exact finish_endings (endings_flows hcalm.flows) (by simp [Fin, TaskStatus.code]) _
      refine ⟨G', ?_, ?_, ?_⟩
      · have hl : loadOf (e1.modI i (fun _ => I2)) i = loadOf e1 i :=
          Born.load (o := 0) (.mild fun J hJ => by rw [hI1] at hJ; cases hJ; exact .calm hcalm)
        rw [a2, hl, hc]; exact h1
      · rw [if_pos a3, h2]; exact Frames.nil.finish (t := ⟨false, u⟩) rfl a5
      · refine ⟨by simp [Settled, TaskStatus.code], h4, Or.inr a3, Nat.le_trans (ssize_finish a5) ?_, (fun hc => nomatch hc), hend⟩
        have := toLinks_length g u
        rw [h5]; simp only [ssize]; omega

/-- A task failed. -/
theorem own_error (h : IS g (Single g) (Fact env g i) W I cnt G) (wf : WellFormed g) (os : OrderSafe g) (hs : G.stk = []) (ho : G.obj u = some o)
    (hu : Live (G.st u)) (hI1 : e1.insts[i]? = some I1) (hsim : SimI I1 { G with st := upd G.st u s0, ex := upd G.ex u n })
    (h0 : ¬ Open s0 ∧ s0 ≠ .skipped) (hd : I1.defn = I.defn) (ht : I1.tasks = I.tasks) (hn : Single g u → n ≤ 1) (hc : loadOf e1 i = upd cnt o 0)
    (hha : I1.handling = false) (err : Err) : Post env g i W (e1.taskError i o ⟨false, u⟩ err)
      (FinishesAs g i (endings I1) G u .failed (e1.taskError i o ⟨false, u⟩ err)) := by
  generalize hR : FinishesAs g i (endings I1) G u .failed (e1.taskError i o ⟨false, u⟩ err) = R
  revert hR
  unfold Eng.taskError
  rw [hI1]
  dsimp only
  intro hR
  cases het : I1.errorTask o ⟨false, u⟩ with
  | mk I2 r =>
    rw [het] at hR
    have hI2 : (e1.modI i (fun _ => I2)).insts[i]? = some I2 := modI_self hI1 _
    cases r with
    | none =>
      dsimp only
      rw [if_neg (by rw [hha]; exact Bool.false_ne_true)]
      exact Post.globalError (appendErrorData_self hI2 _ _) _
    | some es =>
      dsimp only
      intro I' hI' _ _
      have hI3 : (e1.modI i (fun _ => I2.setValue ("_E." ++ u) (errorObj u err))).insts[i]? = some (I2.setValue ("_E." ++ u) (errorObj u err)) :=
        modI_self hI1 _
      dsimp only at hI'
      rw [hI3] at hI'
      cases hI'
      obtain ⟨G', h1, h2, h4, h5⟩ := h.failed wf os hs ho hu hsim h0 hd ht hn fact_failed het
      have hcalm := Calm.errorTask I1 o ⟨false, u⟩
      rw [het] at hcalm
      have hl : loadOf (e1.modI i (fun _ => I2.setValue ("_E." ++ u) (errorObj u err))) i = loadOf e1 i :=
        Born.load (o := 0) (.modI fun J hJ => by
          rw [hI1] at hJ; cases hJ
          exact ⟨(Mild.calm hcalm).aged.host, Or.inl (Mild.calm hcalm).ends⟩)
      refine ⟨G', ?_, ?_, ?_⟩
      · show IS _ _ _ _ _ (loadOf (e1.modI i (fun _ => I2.setValue ("_E." ++ u) (errorObj u err))) i) _
        rw [hl, hc]
        exact ⟨h1.defn, h1.inv, h1.sim.setValue _ _, h1.cnt1, h1.cnt2, h1.nodup⟩
      · rw [if_pos rfl, h2]; exact .enter .nil
      · subst hR
        refine ⟨by simp [Settled, TaskStatus.code], h4, Or.inr rfl, ?_, (fun hc => nomatch hc), fun J hJ => ?_⟩
        have := toLinks_length g u
        · show ssize [.enter es, .release ⟨false, u⟩] ≤ _
          simp only [ssize]; omega
        · dsimp only at hJ
          rw [hI3] at hJ; cases hJ
          have he : endings (I2.setValue ("_E." ++ u) (errorObj u err)) = endings I1 := endings_flows (I' := I2) hcalm.flows
          rw [he]; omega

/-- The task `u` was evaluated: it is finished, or it waits, or it is to be evaluated again. -/
def Executes (env : Env) (g : Graph) (i n o : Nat) (e : Eng) (G : GS) (u : TaskId) (e' : Eng) (G' : GS) : Prop :=
  Finishes g i n G u e' G' ∨
    (G'.st = G.st ∧ e'.stack = [] ∧ G.st u = .ready ∧ (∃ td ∈ g.tasks, td.kind ≠ .basic) ∧ (∃ e1, outcome env e i o = some (e1, .res .again)) ∧
      ∀ I', e'.insts[i]? = some I' → endings I' ≤ n)

/-- The status that a task has after an evaluation with this result. -/
def EndsIn : EvalOut → TaskStatus → Prop
  | .res .done, s => s = .done
  | .res .wait, s => s = .waiting
  | .res .again, s => s = .ready
  | .err _, s => s = .failed
  | _, _ => False

/-- What a behavior did to the state, relative to a state without the new status. -/
def AnyEff (e' : Eng) (i o : Nat) (e1 : Eng) (r : EvalOut) : Prop :=
  (e1 = e' ∨ ∃ s, (s = .waiting ∨ s = .done ∨ s = .failed) ∧ r ≠ .res .again ∧ e1 = e'.setStatus i o s) ∧ r ≠ .res .fail ∧ r ≠ .res .skip

theorem EvalEff.any {e' e1 : Eng} {r : EvalOut} (h : EvalEff e' i o e1 r) : AnyEff e' i o e1 r := by
  cases r with
  | res r =>
    cases r with
    | done => exact ⟨Or.inl h, (fun hc => nomatch hc), (fun hc => nomatch hc)⟩
    | again => exact ⟨Or.inl h, (fun hc => nomatch hc), (fun hc => nomatch hc)⟩
    | wait => exact ⟨h.imp id fun hx => ⟨.waiting, Or.inl rfl, (fun hc => nomatch hc), hx⟩, (fun hc => nomatch hc), (fun hc => nomatch hc)⟩
    | fail => exact absurd h id
    | skip => exact absurd h id
  | err err => exact ⟨h.imp id fun hx => ⟨.failed, Or.inr (Or.inr rfl), (fun hc => nomatch hc), hx⟩, (fun hc => nomatch hc), (fun hc => nomatch hc)⟩
  | panic m => exact ⟨Or.inl h, (fun hc => nomatch hc), (fun hc => nomatch hc)⟩

theorem PostEff.any {e' e1 : Eng} {r : EvalOut} (h : PostEff e' i o e1 r) (hr : r ≠ .res .again) : AnyEff e' i o e1 r := by
  cases r with
  | res r =>
    cases r with
    | done => exact ⟨h.imp id fun hx => ⟨.done, Or.inr (Or.inl rfl), hr, hx⟩, (fun hc => nomatch hc), (fun hc => nomatch hc)⟩
    | again => exact absurd rfl hr
    | wait => exact ⟨Or.inl h, (fun hc => nomatch hc), (fun hc => nomatch hc)⟩
    | fail => exact absurd h id
    | skip => exact absurd h id
  | err err =>
    refine ⟨h.imp id fun hx => ?_, (fun hc => nomatch hc), (fun hc => nomatch hc)⟩
    exact hx.elim (fun hy => ⟨.failed, Or.inr (Or.inr rfl), hr, hy⟩) (fun hy => ⟨.done, Or.inr (Or.inl rfl), hr, hy⟩)
  | panic m => exact ⟨Or.inr ⟨.done, Or.inr (Or.inl rfl), hr, h⟩, (fun hc => nomatch hc), (fun hc => nomatch hc)⟩

/-- Resuming a task that waits for a subflow does not evaluate it. -/
theorem postOnce_trace {ob : Obj} {td : TaskDef} {uri : String} (ho : e.obj? i o = some ob) (htd : e.taskDef? i ob.task = some td)
    (ha : td.act = .subflow uri) (hI : e.insts[i]? = some I) :
    ∃ I', (e.postOnce env i o).1.insts[i]? = some I' ∧ I'.trace = .postAct o ob.task :: I.trace := by
  have h1 : (e.modI i (fun I => { I with trace := .postAct o ob.task :: I.trace })).insts[i]? = some { I with trace := .postAct o ob.task :: I.trace } :=
    modI_self hI _
  unfold Eng.postOnce
  rw [ho]
  dsimp only
  rw [htd]
  dsimp only
  have hcp : callPost env (e.modI i (fun I => { I with trace := .postAct o ob.task :: I.trace })) i o td =
      (e.modI i (fun I => { I with trace := .postAct o ob.task :: I.trace }), .ok true) := by
    unfold Eng.callPost; rw [ha]
  rw [hcp]
  dsimp only
  split
  · exact ⟨_, h1, rfl⟩
  · rw [if_pos rfl]
    obtain ⟨I', h2, h3⟩ := (LocalE.postStore (env := env) (k := true) (i := i) (o := o) (e.modI i (fun I => { I with trace := .postAct o ob.task :: I.trace })) ob td).inst h1
    exact ⟨I', h2, h3.trace⟩

/-- The evaluation of a task, as seen by its flow instance. -/
structure Evaluated (env : Env) (g : Graph) (i o : Nat) (e : Eng) (I : Inst) (cnt : Nat → Nat) (G : GS) (u : TaskId) (td : TaskDef)
    (q : Eng × EvalOut) (I1 : Inst) (s0 : TaskStatus) (n : Nat) : Prop where
  mem : td ∈ g.tasks
  id : td.id = u
  exec : e.exec env i o = handleResult env q.1 i o ⟨false, u⟩ td.name q.2
  outcome : outcome env e i o = some q
  inst : q.1.insts[i]? = some I1
  sim : SimI I1 { G with st := upd G.st u s0, ex := upd G.ex u n }
  st : ¬ Open s0 ∧ s0 ≠ .skipped
  defn : I1.defn = I.defn
  tasks : I1.tasks = I.tasks
  handling : I1.handling = I.handling
  host : I1.host = I.host
  ends : endings I1 = endings I
  single : Single g u → n ≤ 1
  again : q.2 = .res .again → td.kind ≠ .basic ∧ s0 = .ready ∧ G.st u = .ready
  resume : waits q.2 = true → G.st u = .waiting → ¬ Single g u
  sub : waits q.2 = true → SubTask g u → loadOf q.1 i = upd cnt o 2
  free : (waits q.2 = true → ¬ SubTask g u) → loadOf q.1 i = upd cnt o 0
  stack : q.1.stack = []
  result : q.2 ≠ .res .fail ∧ q.2 ≠ .res .skip

theorem evaluated (h : IS g (Single g) (Fact env g i) W I cnt G) (wf : WellFormed g)
    (hb : ∀ t ∈ g.tasks, t.act.sub? ≠ none → t.kind = .basic) (ho : G.obj u = some o) (hu : Live (G.st u))
    (hw : G.st u = .waiting → SubTask g u) (hI : e.insts[i]? = some I)
    (hst : e.stack = []) (hc : loadOf e i = upd cnt o 0) : ∃ td q I1 s0 n, Evaluated env g i o e I cnt G u td q I1 s0 n := by
  obtain ⟨ob, hob, hot, hos⟩ := h.sim.obj u o ho
  have hobj : e.obj? i o = some ob := (obj?_eq hI).trans hob
  obtain ⟨td0, htd0, hid0⟩ := h.inv.dom u hu.ne_notStarted
  have htd : ∃ td, I.defn.task? ob.task = some td ∧ td ∈ g.tasks ∧ td.id = u := by
    rw [hot]
    unfold Def.task? Def.graph
    dsimp only
    rw [h.defn]
    cases hf : g.tasks.find? (fun x => decide (x.id = u)) with
    | none =>
      rw [List.find?_eq_none] at hf
      exact absurd (decide_eq_true hid0) (hf td0 htd0)
    | some td => exact ⟨td, rfl, List.mem_of_find?_eq_some hf, by simpa using List.find?_some hf⟩
  obtain ⟨td, htd, htdm, htdid⟩ := htd
  have htd' : e.taskDef? i ob.task = some td := by unfold Eng.taskDef?; rw [hI]; exact htd
  have hsub : e.subOf i o = td.act.sub? := by
    unfold Eng.subOf
    rw [hobj]
    dsimp only
    rw [htd']
  have huniq : ∀ td' ∈ g.tasks, td'.id = u → td' = td := fun td' h1 h2 => tasks_inj wf h1 htdm (h2.trans htdid.symm)
  have hsubT : SubTask g u ↔ td.act.sub? ≠ none := by
    constructor
    · rintro ⟨td', h1, h2, h3⟩; rw [← huniq td' h1 h2]; exact h3
    · exact fun hx => ⟨td, htdm, htdid, hx⟩
  have h00 : cntOf e i o = 0 ∧ liveOf e i o = 0 := by
    have : loadOf e i o = 0 := by rw [hc, upd_self]
    exact load_zero.1 this
  have main : ∀ (q : Eng × EvalOut) (e' : Eng), Evals env i o (e.subOf i o) e e' → AnyEff e' i o q.1 q.2 →
      Born i o ((e.subOf i o).isSome && waits q.2) e q.1 → e.exec env i o = handleResult env q.1 i o ⟨false, u⟩ td.name q.2 →
      Spec.outcome env e i o = some q → (q.2 = .res .again → td.kind ≠ .basic ∧ G.st u = .ready) →
      (waits q.2 = true → G.st u = .waiting → ¬ Single g u) →
      (Single g u → ∀ I1, e'.insts[i]? = some I1 → I1.trace.countP (isEvalOf ⟨false, u⟩) ≤ 1) →
      ∃ td q I1 s0 n, Evaluated env g i o e I cnt G u td q I1 s0 n := by
    intro q e' hev heff hborn hex hout hagain hresume hsingle
    obtain ⟨_, hI', _, hst', _, _, _⟩ := hev.obj
    obtain ⟨I1, hI1, hsame⟩ := hI' I hI
    obtain ⟨n, hsim, hn⟩ := h.sim.same ho hsame
    have hsub2 : waits q.2 = true → SubTask g u → loadOf q.1 i = upd cnt o 2 := by
      intro h1 h2
      have h3 : ((e.subOf i o).isSome && waits q.2) = true := by
        rw [h1, hsub, Bool.and_true, Option.isSome_iff_ne_none]; exact hsubT.1 h2
      rw [h3] at hborn
      funext p
      unfold loadOf
      rw [hborn.cnt, hborn.live]
      by_cases hp : p = o
      · subst hp; rw [upd_self, if_pos ⟨rfl, rfl⟩, h00.1, h00.2]; rfl
      · rw [upd_ne _ _ hp, if_neg (fun hx => hp hx.2), Nat.add_zero]
        have := congrFun hc p
        rw [upd_ne _ _ hp] at this; exact this
    have hsub0 : (waits q.2 = true → ¬ SubTask g u) → loadOf q.1 i = upd cnt o 0 := by
      intro h1
      have h3 : ((e.subOf i o).isSome && waits q.2) = false := by
        cases hx : waits q.2 with
        | false => rw [Bool.and_false]
        | true =>
          rw [Bool.and_true, hsub]
          have := h1 hx
          rw [hsubT, ne_eq, Classical.not_not] at this
          rw [this]; rfl
      rw [h3] at hborn
      rw [hborn.load, hc]
    have hupd0 : upd G.st u (G.st u) = G.st := by
      funext t; unfold upd; split
      · rename_i hx; rw [hx]
      · rfl
    rcases heff with ⟨heff | ⟨s, hs, hna, heff⟩, hres⟩
    · refine ⟨td, q, I1, G.st u, n, ⟨htdm, htdid, hex, hout, by rw [heff]; exact hI1, by rw [hupd0]; exact hsim, ⟨hu.not_open, hu.ne_skipped⟩,
        hsame.defn, hsame.tasks, hsame.handling, hsame.host, by unfold endings; rw [hsame.posted], fun hx => by rw [hn]; exact hsingle hx I1 hI1, ?_, hresume, hsub2, hsub0, by rw [heff, hst', hst], hres⟩⟩
      exact fun hx => ⟨(hagain hx).1, (hagain hx).2, (hagain hx).2⟩
    · have hc1 := Calm.setTaskStatus I1 o s
      refine ⟨td, q, I1.setTaskStatus o s, s, n, ⟨htdm, htdid, hex, hout, by rw [heff]; exact modI_self hI1 _, hsim.setStatus ho ?_, ?_,
        hc1.defn.trans hsame.defn, (setTaskStatus_tasks ..).trans hsame.tasks, hc1.handling.trans hsame.handling, hc1.host.trans hsame.host,
        (endings_flows hc1.flows).trans (by unfold endings; rw [hsame.posted]),
        fun hx => by rw [hn]; exact hsingle hx I1 hI1, fun hx => absurd hx hna, hresume, hsub2, hsub0, by rw [heff]; exact hst'.trans hst, hres⟩⟩
      · dsimp only
        rcases hu with hu | hu <;> rw [hu] <;> rcases hs with rfl | rfl | rfl <;> simp [Open, TaskStatus.code]
      · rcases hs with rfl | rfl | rfl <;> simp [Open, TaskStatus.code]
  rcases hu with hu | hu
  · rw [hu] at hos
    obtain ⟨e', hev, heff⟩ := evalKind_spec (env := env) hobj td
    obtain ⟨_, hI', _⟩ := hev.obj
    have hany : AnyEff e' i o (e.evalKind env i o td).1 (e.evalKind env i o td).2 := EvalEff.any heff
    refine main (e.evalKind env i o td) e' hev hany ?_ ?_ ?_ ?_ (fun _ hx => by rw [hu] at hx; cases hx) ?_
    · cases hs : td.act.sub? with
      | none =>
        rw [hsub, hs] at hev ⊢
        have h1 := Born.evals hev
        show Born i o false _ _
        have key : ∀ s, Born i o false e (e'.setStatus i o s) := fun s => h1.trans (.mild fun J _ => .calm (Calm.setTaskStatus J o s))
        rcases hany.1 with hx | ⟨s, _, _, hx⟩
        · rw [hx]; exact h1
        · rw [hx]; exact key s
      | some uri =>
        have hk := hb td htdm (by rw [hs]; exact fun hc => nomatch hc)
        unfold Eng.evalKind
        rw [hk]
        exact born_evalBasic hobj
    · unfold Eng.exec
      rw [hobj]
      dsimp only
      rw [htd']
      dsimp only
      rw [hos, hot]
    · unfold Spec.outcome
      rw [hobj]
      dsimp only
      rw [htd']
      dsimp only
      rw [hos, if_neg (fun hc => nomatch hc), if_neg (fun hc => hc.elim (fun h => nomatch h) (fun h => nomatch h))]
    · refine fun hx => ⟨fun hk => ?_, hu⟩
      revert hx
      unfold Eng.evalKind
      rw [hk]
      dsimp only
      unfold Eng.evalBasic
      split <;> exact fun hc => nomatch hc
    · rintro ⟨td', htd2, hid', hk, hr⟩ I1 hI1
      have htt := huniq td' htd2 hid'
      subst htt
      obtain ⟨I1', hI1', hsame⟩ := hI' I hI
      rw [hI1'] at hI1; cases hI1
      obtain ⟨h1, _⟩ := evalKind_single (env := env) hobj htd' hk hr
      have h3 : callCount (e.evalKind env i o td').1 i = callCount e' i := by
        have key : ∀ s, callCount (e'.setStatus i o s) i = callCount e' i := by
          intro s
          unfold callCount Eng.setStatus
          rw [calls_eq (modI_self hI1' _), calls_eq hI1', (Calm.setTaskStatus I1 o s).calls]
        rcases hany.1 with hx | ⟨s, _, _, hx⟩
        · rw [hx]
        · rw [hx]; exact key s
      obtain ⟨evs, ht1, ht2⟩ := hsame.trace
      have h4 : callCount e' i = evs.length + callCount e i := by
        unfold callCount
        rw [calls_eq hI1', calls_eq hI, ht1, List.filter_append, List.length_append, List.filter_eq_self.2]
        intro ev hev
        obtain ⟨ob', _, hx | hx⟩ := ht2 ev hev <;> rw [hx] <;> rfl
      have h5 : I.trace.countP (isEvalOf ⟨false, u⟩) = 0 := by
        rw [h.sim.ex u]
        exact (h.inv.ex u ⟨td', htdm, htdid, hk, hr⟩).2 (Or.inl hu)
      have h6 := List.countP_le_length (p := isEvalOf ⟨false, u⟩) (l := evs)
      rw [ht1, List.countP_append, h5]
      omega
  · rw [hu] at hos
    obtain ⟨e', hev, heff⟩ := postKind_spec (env := env) hobj td
    have hk := hb td htdm (hsubT.1 (hw hu))
    have hpk : e.postKind env i o td = e.postBasic env i o := by unfold Eng.postKind; rw [hk]
    have hna : (e.postKind env i o td).2 ≠ .res .again := by
      rw [hpk]
      unfold Eng.postBasic
      split
      · exact fun hc => nomatch hc
      · split
        · split
          · exact fun hc => nomatch hc
          · split
            · split <;> exact fun hc => nomatch hc
            · exact fun hc => nomatch hc
        · exact fun hc => nomatch hc
    have hany : AnyEff e' i o (e.postKind env i o td).1 (e.postKind env i o td).2 := PostEff.any heff hna
    refine main (e.postKind env i o td) e' hev hany ?_ ?_ ?_ (fun hx => absurd hx hna) (fun hx _ => ?_) ?_
    · rw [hpk]; exact born_postBasic hobj
    · unfold Eng.exec
      rw [hobj]
      dsimp only
      rw [htd']
      dsimp only
      rw [hos, hot]
    · unfold Spec.outcome
      rw [hobj]
      dsimp only
      rw [htd']
      dsimp only
      rw [hos, if_pos rfl]
    · rintro ⟨td', htd2, hid', _, hr⟩
      have htt := huniq td' htd2 hid'
      subst htt
      rw [hpk, (postBasic_noRetry hobj htd' hr).2] at hx
      cases hx
    · rintro ⟨td', htd2, hid', _, hr⟩ I1 hI1
      have htt := huniq td' htd2 hid'
      subst htt
      obtain ⟨uri, hact⟩ : ∃ uri, td'.act = .subflow uri := by
        have := hsubT.1 (hw hu)
        revert this
        cases td'.act <;> simp [ActKind.sub?]
      obtain ⟨I2, h1, h2⟩ := postOnce_trace (env := env) hobj htd' hact hI
      have h3 : e.postKind env i o td' = ((e.postOnce env i o).1, (e.postBasic env i o).2) := by
        rw [hpk]; exact Prod.ext (postBasic_noRetry hobj htd' hr).1 rfl
      have h4 : I1.trace.countP (isEvalOf ⟨false, u⟩) = I2.trace.countP (isEvalOf ⟨false, u⟩) := by
        have key : ∀ s, (I1.setTaskStatus o s).trace.countP (isEvalOf ⟨false, u⟩) = I1.trace.countP (isEvalOf ⟨false, u⟩) := by
          intro s
          unfold Inst.setTaskStatus
          split
          · rfl
          · show (_ :: _).countP _ = _
            rw [List.countP_cons_of_neg (by simp [isEvalOf])]
        rcases hany.1 with hx | ⟨s, _, _, hx⟩
        · rw [h3] at hx
          dsimp only at hx
          rw [hx, hI1] at h1; cases h1; rfl
        · rw [h3] at hx
          dsimp only at hx
          rw [hx] at h1
          have : (e'.setStatus i o s).insts[i]? = some (I1.setTaskStatus o s) := modI_self hI1 _
          rw [this] at h1; cases h1
          exact (key s).symm
      rw [h4, h2, List.countP_cons_of_neg (by simp [isEvalOf]), h.sim.ex u]
      exact (h.inv.ex u ⟨td', htdm, htdid, hk, hr⟩).1

/-- A work item of instance `i` is executed; the result of the evaluation decides the status. -/
theorem own_exec_as (h : IS g (Single g) (Fact env g i) W I cnt G) (wf : WellFormed g) (os : OrderSafe g)
    (hb : ∀ t ∈ g.tasks, t.act.sub? ≠ none → t.kind = .basic) (hs : G.stk = []) (ho : G.obj u = some o) (hu : Live (G.st u))
    (hw : G.st u = .waiting → SubTask g u) (hW : (SubTask g u → W u 2) ∧ (¬ SubTask g u → W u 0)) (hcu : G.st u = .ready → cnt o = 1)
    (hI : e.insts[i]? = some I)
    (hst : e.stack = []) (hc : loadOf e i = upd cnt o 0) (hha : I.handling = false)
    (hh : ∀ h o, I.host = some (h, o) → h ≠ i) : Post env g i W (e.exec env i o) (fun G' => Executes env g i (endings I) o e G u (e.exec env i o) G' ∧
      ∃ p, outcome env e i o = some p ∧ EndsIn p.2 (G'.st u)) := by
  obtain ⟨td, q, I1, s0, n, hE⟩ := evaluated h wf hb ho hu hw hI hst hc
  rw [hE.exec]
  have hpost : ∀ {f : Eng} {s : TaskStatus}, Post env g i W f (FinishesAs g i (endings I) G u s f) → EndsIn q.2 s →
      Post env g i W f (fun G' => Executes env g i (endings I) o e G u f G' ∧ ∃ p, outcome env e i o = some p ∧ EndsIn p.2 (G'.st u)) := by
    intro f s hf hv I' hI' a b
    obtain ⟨G', h2, h3, h4⟩ := hf I' hI' a b
    exact ⟨G', h2, h3, Or.inl ⟨s, h4⟩, q, hE.outcome, by rw [h4.2.1, upd_self]; exact hv⟩
  have hout := hE.outcome
  have hends := hE.ends
  have hh1 : ∀ h o, I1.host = some (h, o) → h ≠ i := by rw [hE.host]; exact hh
  have hha1 : I1.handling = false := hE.handling.trans hha
  obtain ⟨e1, r⟩ := q
  dsimp only
  have hnw : waits r ≠ true → loadOf e1 i = upd cnt o 0 := fun hx => hE.free (fun hy => absurd hy hx)
  cases r with
  | res r =>
    cases r with
    | done =>
      exact hpost (hends ▸ own_done h wf os hs ho hu hE.inst hE.sim hE.st hE.defn hE.tasks hE.single (hnw Bool.false_ne_true) hh1) rfl
    | skip => exact absurd rfl hE.result.2
    | fail => exact absurd rfl hE.result.1
    | wait =>
      intro I' hI' _ _
      have hI2 : (e1.setStatus i o .waiting).insts[i]? = some (I1.setTaskStatus o .waiting) := modI_self hE.inst _
      have hI' : (e1.setStatus i o .waiting).insts[i]? = some I' := hI'
      rw [hI2] at hI'; cases hI'
      have hl : loadOf (e1.setStatus i o .waiting) i = loadOf e1 i :=
        Born.load (o := 0) (.mild fun J _ => .calm (Calm.setTaskStatus J o .waiting))
      have hk : ∃ k, W u k ∧ loadOf e1 i = upd cnt o k := by
        by_cases hx : SubTask g u
        · exact ⟨2, hW.1 hx, hE.sub rfl hx⟩
        · exact ⟨0, hW.2 hx, hE.free (fun _ => hx)⟩
      obtain ⟨k, hk1, hk2⟩ := hk
      obtain ⟨G', h1, h2, h2'⟩ := h.wait ho hu hE.sim hE.st hE.defn hE.tasks hE.single hk1
      have hstk : e1.stack = [] := hE.stack
      refine ⟨G', ?_, ?_, Or.inl ⟨.waiting, by simp [Settled, TaskStatus.code], h2', Or.inl hstk, ?_, fun _ => hE.resume rfl, fun J hJ => ?_⟩,
        _, hout, (by show G'.st u = .waiting; rw [h2', upd_self])⟩
      · show IS _ _ _ _ _ (loadOf (e1.setStatus i o .waiting) i) _
        rw [hl, hk2]; exact h1
      · show Frames (if e1.cur = i then e1.stack else []) _
        rw [hstk, ite_self, h2, hs]; exact .nil
      · show ssize e1.stack ≤ _
        rw [hstk]; exact Nat.zero_le _
      · have hJ : (e1.setStatus i o .waiting).insts[i]? = some J := hJ
        rw [hI2] at hJ; cases hJ
        rw [endings_flows (Calm.setTaskStatus I1 o .waiting).flows, hends]; omega
    | again =>
      obtain ⟨h1, h2, h3⟩ := hE.again rfl
      intro I' hI' _ _
      have hstk : e1.stack = [] := hE.stack
      have hI1 : (e1.schedule i o).insts[i]? = some I1 := hE.inst
      have hI' : (e1.schedule i o).insts[i]? = some I' := hI'
      rw [hI1] at hI'; cases hI'
      have hupd0 : upd G.st u s0 = G.st := by
        funext t; unfold upd; split
        · rename_i hx; rw [hx, h2, h3]
        · rfl
      have hsim := hE.sim
      rw [hupd0] at hsim
      have hns : ¬ Single g u := by
        rintro ⟨td', a1, a2, a3, _⟩
        exact h1 ((tasks_inj wf hE.mem a1 (hE.id.trans a2.symm)) ▸ a3)
      obtain ⟨G', b1, b2, b3⟩ := h.again hsim hE.defn hE.tasks hns
      refine ⟨G', ?_, ?_, Or.inr ⟨b3, hstk, h3, ⟨td, hE.mem, h1⟩, ⟨_, hE.outcome⟩, fun J hJ => by
        have hJ : (e1.schedule i o).insts[i]? = some J := hJ
        rw [hI1] at hJ; cases hJ; exact Nat.le_of_eq hends⟩, _, hout, (by show G'.st u = .ready; rw [b3]; exact h3)⟩
      · show IS _ _ _ _ _ (loadOf (e1.schedule i o) i) _
        have h0 := hnw Bool.false_ne_true
        have : loadOf (e1.schedule i o) i = cnt := by
          funext p
          have h4 := congrFun h0 p
          unfold loadOf at h4 ⊢
          rw [cntOf_schedule]
          show load _ (liveOf e1 i p) = _
          by_cases hp : p = o
          · subst hp
            rw [upd_self, load_zero] at h4
            rw [upd_self, h4.1, h4.2, hcu h3]; rfl
          · rw [upd_ne _ _ hp] at h4 ⊢; exact h4
        rw [this]; exact b1
      · show Frames (if e1.cur = i then e1.stack else []) _
        rw [hstk, ite_self, b2, hs]; exact .nil
  | err err =>
    exact hpost (hends ▸ own_error h wf os hs ho hu hE.inst hE.sim hE.st hE.defn hE.tasks hE.single (hnw Bool.false_ne_true) hha1 err) rfl
  | panic m =>
    unfold Eng.handleResult
    dsimp only
    rw [hE.inst]
    dsimp only
    rw [if_neg (by rw [hha1]; exact Bool.false_ne_true)]
    exact Post.globalError (appendErrorData_self hE.inst _ _) _

/-- A work item of instance `i` is executed. -/
theorem own_exec (h : IS g (Single g) (Fact env g i) W I cnt G) (wf : WellFormed g) (os : OrderSafe g)
    (hb : ∀ t ∈ g.tasks, t.act.sub? ≠ none → t.kind = .basic) (hs : G.stk = []) (ho : G.obj u = some o) (hu : Live (G.st u))
    (hw : G.st u = .waiting → SubTask g u) (hW : (SubTask g u → W u 2) ∧ (¬ SubTask g u → W u 0)) (hcu : G.st u = .ready → cnt o = 1)
    (hI : e.insts[i]? = some I)
    (hst : e.stack = []) (hc : loadOf e i = upd cnt o 0) (hha : I.handling = false)
    (hh : ∀ h o, I.host = some (h, o) → h ≠ i) : Post env g i W (e.exec env i o) (Executes env g i (endings I) o e G u (e.exec env i o)) := by
  intro I' hI' a b
  obtain ⟨G', h1, h2, h3, _⟩ := own_exec_as h wf os hb hs ho hu hw hW hcu hI hst hc hha hh I' hI' a b
  exact ⟨G', h1, h2, h3⟩

end Flow.GraphM
