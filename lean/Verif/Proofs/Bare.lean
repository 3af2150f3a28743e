import Verif.Proofs.Step
import Verif.Spec.Cover

/-
Runs with an interceptor without coverage object: no task is ever handled as done, so the flow does not complete.
-/

namespace Flow

open Spec

namespace Eng

variable {env : Env}

/-- The only instance has not completed and only tasks without incoming links were entered. -/
structure BareInst (I : Inst) : Prop where
  status : I.status ≠ .completed
  objs : ∀ ob ∈ I.objs, I.defn.fromLinks ob.task = []

/-- Only the main flow runs; the control stack has at most start tasks to enter. -/
structure Bare (d : Def) (e : Eng) : Prop where
  one : ∃ I, e.insts = [I] ∧ I.defn = d ∧ BareInst I
  cur : e.stack ≠ [] → e.cur = 0
  stack : e.stack = [] ∨ ∃ es, e.stack = [.enter es] ∧ ∀ x ∈ es, d.fromLinks x.task = []

theorem BareInst.of {I I' : Inst} (h : BareInst I) (hd : I'.defn = I.defn) (hs : I'.status = I.status ∨ I'.status ≠ .completed)
    (ho : ∀ ob' ∈ I'.objs, (∃ ob ∈ I.objs, ob'.task = ob.task) ∨ I.defn.fromLinks ob'.task = []) : BareInst I' := by
  refine ⟨?_, fun ob' hob => ?_⟩
  · rcases hs with hs | hs
    · rw [hs]; exact h.status
    · exact hs
  · rw [hd]
    rcases ho ob' hob with ⟨ob, h1, h2⟩ | h1
    · rw [h2]; exact h.objs ob h1
    · exact h1

theorem mem_modify {l : List Obj} {o : Nat} {f : Obj → Obj} (hf : ∀ x, (f x).task = x.task) {ob' : Obj} (h : ob' ∈ l.modify o f) :
    ∃ ob ∈ l, ob'.task = ob.task := by
  obtain ⟨m, hm⟩ := List.mem_iff_getElem?.mp h
  rw [List.getElem?_modify] at hm
  cases hl : l[m]? with
  | none => rw [hl] at hm; split at hm <;> cases hm
  | some ob =>
    rw [hl] at hm
    refine ⟨ob, List.mem_of_getElem? hl, ?_⟩
    split at hm <;> cases hm
    · exact hf ob
    · rfl

theorem BareInst.setTaskStatus {I : Inst} (h : BareInst I) (o : Nat) (s : TaskStatus) : BareInst (I.setTaskStatus o s) := by
  unfold Inst.setTaskStatus
  split
  · exact h
  · exact h.of rfl (.inl rfl) fun ob' hob => .inl (mem_modify (o := o) (f := fun x => { x with status := s }) (fun _ => rfl) hob)

theorem BareInst.findLinks (ls : List LinkDef) : ∀ {I : Inst}, BareInst I → BareInst (I.findLinks ls) := by
  induction ls with
  | nil => exact fun h => h
  | cons l ls ih =>
    intro I h
    refine ih (I := I.findLink l.id) ?_
    unfold Inst.findLink
    split
    · exact h
    · exact h.of rfl (.inl rfl) fun ob' hob => .inl ⟨ob', hob, rfl⟩

theorem findLinks_defn (ls : List LinkDef) : ∀ I : Inst, (I.findLinks ls).defn = I.defn := by
  induction ls with
  | nil => intro I; rfl
  | cons l ls ih =>
    intro I
    refine (ih (I.findLink l.id)).trans ?_
    unfold Inst.findLink
    split <;> rfl

theorem setTaskStatus_defn (I : Inst) (o : Nat) (s : TaskStatus) : (I.setTaskStatus o s).defn = I.defn := by
  unfold Inst.setTaskStatus
  split <;> rfl

/-- Entering a task without incoming links does not skip it. -/
theorem BareInst.enterTask {I : Inst} (h : BareInst I) {t : TaskRef} (ht : I.defn.fromLinks t = []) :
    BareInst (I.enterTask t).1 ∧ (I.enterTask t).1.defn = I.defn ∧ (I.enterTask t).2.2 ≠ .skip := by
  have h1 : BareInst (I.findOrCreateTask t).1 ∧ (I.findOrCreateTask t).1.defn = I.defn := by
    unfold Inst.findOrCreateTask
    split
    · exact ⟨h, rfl⟩
    · refine ⟨h.of rfl (.inl rfl) fun ob' hob => ?_, rfl⟩
      rcases List.mem_append.mp hob with hob | hob
      · exact .inl ⟨ob', hob, rfl⟩
      · cases List.mem_singleton.mp hob; exact .inr ht
  unfold Inst.enterTask
  dsimp only
  split
  · exact ⟨h1.1, h1.2, nofun⟩
  · rename_i ob hob
    have h2 := (h1.1.setTaskStatus (I.findOrCreateTask t).2 .entered).findLinks ((I.findOrCreateTask t).1.defn.fromLinks ob.task)
    have h3 := (findLinks_defn ((I.findOrCreateTask t).1.defn.fromLinks ob.task) _).trans
      ((setTaskStatus_defn (I.findOrCreateTask t).1 (I.findOrCreateTask t).2 .entered).trans h1.2)
    have h4 : (I.findOrCreateTask t).1.defn.fromLinks ob.task = [] := h1.1.objs ob (List.mem_of_getElem? hob)
    split
    · exact ⟨h2, h3, nofun⟩
    · exact ⟨h2.setTaskStatus _ _, (setTaskStatus_defn _ _ _).trans h3, nofun⟩
    · rename_i hx
      rw [h4] at hx
      cases hx

theorem startEntries_start (d : Def) (eh : Bool) : ∀ x ∈ Inst.startEntries d eh, d.fromLinks x.task = [] := by
  intro x hx
  unfold Inst.startEntries at hx
  obtain ⟨t, ht, rfl⟩ := List.mem_map.mp hx
  have := (List.mem_filter.mp ht).2
  exact List.eq_nil_of_length_eq_zero (by simpa using this)

theorem modI_one {e : Eng} {I : Inst} (h : e.insts = [I]) (f : Inst → Inst) : (e.modI 0 f).insts = [f I] := by
  unfold modI; rw [h]; rfl

/-- Same control, and the instance is replaced. -/
theorem Bare.mod {d : Def} {e e' : Eng} (_ : Bare d e) {I' : Inst} (hi : e'.insts = [I']) (hd : I'.defn = d) (hb : BareInst I')
    (hs : e'.stack = []) : Bare d e' :=
  ⟨⟨I', hi, hd, hb⟩, fun h => absurd hs h, .inl hs⟩

theorem bare_enterStart {d : Def} (es : List TaskEntry) (hes : ∀ x ∈ es, d.fromLinks x.task = []) : ∀ e : Eng, Bare d e → e.stack = [] →
    Bare d (enterStart env e 0 es) := by
  induction es with
  | nil => exact fun e h _ => h
  | cons x xs ih =>
    intro e h hs
    obtain ⟨I, hI, hd, hb⟩ := h.one
    have h0 : e.insts[0]? = some I := by rw [hI]; rfl
    unfold enterStart
    rw [h0]
    dsimp only
    have h1 := hb.enterTask (t := x.task) (by rw [hd]; exact hes x (by simp))
    have h2 : Bare d (e.modI 0 (fun _ => (I.enterTask x.task).1)) := h.mod (modI_one hI _) (h1.2.1.trans hd) h1.1 hs
    split
    · split
      · exact ih (fun y hy => hes y (by simp [hy])) _ (h2.mod (modI_one hI _) (h1.2.1.trans hd) h1.1 hs) hs
      · exact h2
    · exact ih (fun y hy => hes y (by simp [hy])) _ h2 hs

theorem bare_init (id uri : String) (d : Def) (ins : AMap String Val) : Bare d (init env id uri d ins) := by
  unfold init startInstance
  change Bare d (enterStart env _ 0 (Inst.startEntries d false))
  refine bare_enterStart _ (startEntries_start d false) _ ⟨⟨_, rfl, rfl, (by exact nofun : (_ : FlowStatus) ≠ _), ?_⟩, fun h => absurd rfl h, .inl rfl⟩ rfl
  intro ob hob
  cases hob

/-- A global error starts the error handler or ends the flow as failed. -/
theorem bare_global {d : Def} {e : Eng} (h : Bare d e) (hs : e.stack = []) (err : Err) : Bare d (e.globalError 0 err) := by
  obtain ⟨I, hI, hd, hb⟩ := h.one
  have h0 : e.insts[0]? = some I := by rw [hI]; rfl
  have hf : ∀ {J : Inst}, BareInst J → BareInst (J.setFlowStatus .failed) :=
    fun hJ => hJ.of rfl (.inr nofun) fun ob' hob => .inl ⟨ob', hob, rfl⟩
  unfold globalError
  rw [h0]
  dsimp only
  split
  · exact h.mod (modI_one hI _) hd (hf hb) hs
  · have h1 : BareInst { I with handling := true } := hb.of rfl (.inl rfl) fun ob' hob => .inl ⟨ob', hob, rfl⟩
    have i1 := modI_one hI (fun J => { J with handling := true })
    split
    · have h2 : BareInst { ({ I with handling := true } : Inst).clearTasks with trace := .ehStart :: ({ I with handling := true } : Inst).clearTasks.trace } :=
        hb.of rfl (.inl rfl) fun ob' hob => .inl ⟨ob', hob, rfl⟩
      refine ⟨⟨_, modI_one (modI_one i1 _) _, hd, h2⟩, fun _ => rfl, .inr ⟨_, rfl, ?_⟩⟩
      rw [← hd]
      exact startEntries_start I.defn true
    · rw [if_pos rfl]
      refine h.mod (modI_one (modI_one i1 _) _) hd ?_ hs
      exact (hf h1).of rfl (.inl rfl) fun ob' hob => .inl ⟨ob', hob, rfl⟩

theorem bare_errorData {d : Def} {e : Eng} (h : Bare d e) (hs : e.stack = []) (t : TaskId) (err : Err) : Bare d (e.appendErrorData 0 t err) := by
  obtain ⟨I, hI, hd, hb⟩ := h.one
  exact h.mod (modI_one hI _) hd (hb.of rfl (.inl rfl) fun ob' hob => .inl ⟨ob', hob, rfl⟩) hs

theorem bare_panic {d : Def} {e : Eng} (h : Bare d e) (hs : e.stack = []) (o : Nat) (t : TaskRef) (name m : String) :
    Bare d (handleResult env e 0 o t name (.panic m)) := by
  obtain ⟨I, hI, hd, hb⟩ := h.one
  have h0 : e.insts[0]? = some I := by rw [hI]; rfl
  unfold handleResult
  dsimp only
  rw [h0]
  dsimp only
  split
  · exact h
  · exact bare_global (bare_errorData h hs _ _) hs _

theorem bare_handle {d : Def} {e : Eng} (h : Bare d e) (hs : e.stack = []) (o : Nat) (t : TaskRef) (name : String) (r : EvalOut) :
    Bare d (handleBare env e 0 o t name r) := by
  obtain ⟨I, hI, hd, hb⟩ := h.one
  have hst : ∀ s, Bare d (e.setStatus 0 o s) := fun s =>
    h.mod (modI_one hI _) ((setTaskStatus_defn I o s).trans hd) (hb.setTaskStatus o s) hs
  have hdone : Bare d (e.modI 0 (fun I => (I.findLinks (I.defn.toLinks t)).setTaskStatus o .done)) :=
    h.mod (modI_one hI _) (((setTaskStatus_defn _ o _).trans (findLinks_defn _ I)).trans hd) ((hb.findLinks _).setTaskStatus o _) hs
  cases r with
  | err err => exact bare_panic (env := env) (hst .failed) hs o t name _
  | panic m => exact bare_panic (env := env) h hs o t name m
  | res x =>
    cases x with
    | done => exact bare_panic (env := env) hdone hs o t name _
    | skip => exact bare_panic (env := env) hdone hs o t name _
    | fail => exact hst .failed
    | wait => exact hst .waiting
    | again => exact h.mod hI hd hb hs

theorem bare_evals {d : Def} {o : Nat} {e e' : Eng} (h : Evals env 0 o none e e') : Bare d e → e.stack = [] → Bare d e' ∧ e'.stack = [] := by
  generalize hk : (none : Option String) = k at h
  induction h with
  | refl e => exact fun h hs => ⟨h, hs⟩
  | inst e f hf =>
    intro h hs
    obtain ⟨I, hI, hd, hb⟩ := h.one
    have h1 := hf I (by rw [hI]; rfl)
    refine ⟨h.mod (modI_one hI _) (h1.defn.trans hd) (hb.of h1.defn (.inl h1.status) fun ob' hob => .inl ?_) hs, hs⟩
    obtain ⟨m, hm⟩ := List.mem_iff_getElem?.mp hob
    obtain ⟨ob, h2, h3, _⟩ := h1.task_eq hm
    exact ⟨ob, List.mem_of_getElem? h2, h3.symm⟩
  | reply e r =>
    intro h hs
    obtain ⟨I, hI, hd, hb⟩ := h.one
    exact ⟨h.mod hI hd hb hs, hs⟩
  | sub e uri d' inputs hs' => rw [← hk] at hs'; cases hs'
  | trans _ _ ih1 ih2 =>
    intro h hs
    obtain ⟨h1, h2⟩ := ih1 h hs
    exact ih2 h1 h2

theorem bare_outcome {d : Def} (hl : NoSubflows d) {e : Eng} (h : Bare d e) (hs : e.stack = []) {o : Nat} {ob : Obj} (ho : e.obj? 0 o = some ob)
    {e' : Eng} {r : EvalOut} (hx : outcome env e 0 o = some (e', r)) : Bare d e' ∧ e'.stack = [] := by
  obtain ⟨I, hI, hd, hb⟩ := h.one
  have h0 : e.insts[0]? = some I := by rw [hI]; rfl
  obtain ⟨e1, h1, h2⟩ := outcome_evals hx
  have hsub : e.subOf 0 o = none := by
    unfold Eng.subOf
    rw [ho]
    dsimp only
    cases htd : e.taskDef? 0 ob.task with
    | none => rfl
    | some td =>
      dsimp only
      unfold taskDef? at htd
      rw [h0] at htd
      have := hl ob.task td (by rw [← hd]; exact htd)
      unfold ActKind.sub?
      split
      · rename_i uri hu; exact absurd hu (this uri)
      · rfl
  rw [hsub] at h1
  obtain ⟨h3, h4⟩ := bare_evals h1 h hs
  rcases h2 with rfl | ⟨st, rfl⟩
  · exact ⟨h3, h4⟩
  · obtain ⟨I1, hI1, hd1, hb1⟩ := h3.one
    exact ⟨h3.mod (modI_one hI1 _) ((setTaskStatus_defn I1 o st).trans hd1) (hb1.setTaskStatus o st) h4, h4⟩

theorem bare_exec {d : Def} (hl : NoSubflows d) {e : Eng} (h : Bare d e) (hs : e.stack = []) (i o : Nat) : Bare d (execBare env e i o) := by
  obtain ⟨I, hI, hd, hb⟩ := h.one
  unfold execBare
  cases ho : e.obj? i o with
  | none => exact h
  | some ob =>
    have hi : i = 0 := by
      obtain ⟨J, hJ, _⟩ := obj?_some ho
      have := (List.getElem?_eq_some_iff.mp hJ).1
      rw [hI] at this
      simpa using this
    subst hi
    dsimp only
    cases htd : e.taskDef? 0 ob.task with
    | none => exact h
    | some td =>
      dsimp only
      have hev : ob.status ≠ .skipped → ob.status ≠ .done → ob.status ≠ .waiting →
          Bare d (handleBare env (e.evalKind env 0 o td).1 0 o ob.task td.name (e.evalKind env 0 o td).2) := by
        intro h1 h2 h3
        have hx : outcome env e 0 o = some ((e.evalKind env 0 o td).1, (e.evalKind env 0 o td).2) := by
          unfold Spec.outcome
          rw [ho]
          dsimp only
          rw [htd]
          dsimp only
          rw [if_neg h3, if_neg (by rintro (h | h); exact h1 h; exact h2 h)]
        obtain ⟨a, b⟩ := bare_outcome hl h hs ho hx
        exact bare_handle a b o _ _ _
      cases hst : ob.status <;> dsimp only
      case waiting =>
        have hx : outcome env e 0 o = some ((e.postKind env 0 o td).1, (e.postKind env 0 o td).2) := by
          unfold Spec.outcome
          rw [ho]
          dsimp only
          rw [htd]
          dsimp only
          rw [if_pos hst]
        obtain ⟨a, b⟩ := bare_outcome hl h hs ho hx
        exact bare_handle a b o _ _ _
      case skipped => exact h
      case done => exact h
      all_goals exact hev (by rw [hst]; nofun) (by rw [hst]; nofun) (by rw [hst]; nofun)

theorem bare_step {d : Def} (hl : NoSubflows d) {e : Eng} (h : Bare d e) : Bare d (stepBare env e) := by
  obtain ⟨I, hI, hd, hb⟩ := h.one
  have h0 : e.insts[0]? = some I := by rw [hI]; rfl
  unfold stepBare
  cases hs : e.stack with
  | nil =>
    dsimp only
    unfold doStepBare
    rw [h0]
    dsimp only
    split
    · split
      · exact h.mod hI hd hb hs
      · rename_i w _
        have h1 : Bare d (afterPop env e w) := h.mod hI hd hb hs
        exact bare_exec (env := env) hl h1 hs w.inst w.obj
    · exact h.mod hI hd hb hs
  | cons f rest =>
    dsimp only
    rcases h.stack with h1 | ⟨es, h1, h2⟩
    · rw [h1] at hs; cases hs
    · have hcur := h.cur (by rw [h1]; nofun)
      unfold step
      rw [h1]
      cases es with
      | nil => exact h.mod hI hd hb rfl
      | cons x xs =>
        dsimp only
        unfold enterEntry
        rw [hcur, h0]
        dsimp only
        have h3 := hb.enterTask (t := x.task) (by rw [hd]; exact h2 x (by simp))
        have hxs : ∀ y ∈ xs, d.fromLinks y.task = [] := fun y hy => h2 y (by simp [hy])
        split
        · exact ⟨⟨_, modI_one hI _, h3.2.1.trans hd, h3.1⟩, fun _ => hcur, .inr ⟨xs, rfl, hxs⟩⟩
        · split
          · exact ⟨⟨_, modI_one hI _, h3.2.1.trans hd, h3.1⟩, fun _ => hcur, .inr ⟨xs, rfl, hxs⟩⟩
          · exact ⟨⟨_, modI_one hI _, h3.2.1.trans hd, h3.1⟩, fun h => absurd rfl h, .inl rfl⟩
        · rename_i hx; exact absurd hx h3.2.2

theorem bare_run {d : Def} (hl : NoSubflows d) (id uri : String) (ins : AMap String Val) (n : Nat) :
    Bare d (runBare env (init env id uri d ins) n) := by
  induction n with
  | zero => exact bare_init id uri d ins
  | succ n ih => exact bare_step hl ih

end Eng

end Flow
