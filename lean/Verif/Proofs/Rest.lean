import Verif.Proofs.GraphUse
import Verif.Proofs.GraphTerm
import Verif.Proofs.Cover
import Verif.Proofs.ConcJoin
import Verif.Spec.Resume

/-
The data of tasks that have not begun, and the tasks that are finished but not yet released.
-/

namespace Flow.GraphM

open Spec Eng

theorem modify_at {α : Type} {l : List α} {f : α → α} {o : Nat} {x : α} (h : l[o]? = some x) : (l.modify o f)[o]? = some (f x) := by
  rw [List.getElem?_modify, h]; simp

/-- Nothing but the status of the task object was ever set. -/
def Blank (ob : Obj) : Prop := ob = { task := ob.task, status := ob.status }

theorem Blank.status {ob : Obj} (h : Blank ob) (s : TaskStatus) : Blank { ob with status := s } := by
  unfold Blank at *
  rw [h]

/-- Task objects of tasks that have not begun are blank; tasks of the table that are finished are in `R`. -/
structure Tidy (I : Inst) (R : TaskRef → Prop) : Prop where
  blank : ∀ (o : Nat) (ob : Obj), I.objs[o]? = some ob → Open ob.status ∨ ob.status = .ready → Blank ob
  left : ∀ (t : TaskId) (o : Nat) (ob : Obj), I.tasks.get? t = some o → I.objs[o]? = some ob → Fin ob.status → R ob.task

namespace Tidy

variable {I I' : Inst} {R R' : TaskRef → Prop}

theorem congr (h : Tidy I R) (ho : I'.objs = I.objs) (ht : I'.tasks = I.tasks) : Tidy I' R :=
  ⟨fun o ob h1 h2 => h.blank o ob (by rw [← ho]; exact h1) h2,
   fun t o ob h1 h2 h3 => h.left t o ob (by rw [← ht]; exact h1) (by rw [← ho]; exact h2) h3⟩

theorem mono (h : Tidy I R) (hR : ∀ t, R t → R' t) : Tidy I R' :=
  ⟨h.blank, fun t o ob h1 h2 h3 => hR _ (h.left t o ob h1 h2 h3)⟩

theorem applyRows_objs (J : Inst) (rows : List (LinkDef × LinkStatus × Nat)) : (J.applyRows rows).objs = J.objs := by
  unfold Inst.applyRows
  induction rows generalizing J with
  | nil => rfl
  | cons r rows ih => exact (ih _).trans rfl

theorem findLinks (h : Tidy I R) (ls : List LinkDef) : Tidy (I.findLinks ls) R := h.congr (findLinks_objs ls I) (findLinks_tasks I ls)

theorem applyRows (h : Tidy I R) (rows : List (LinkDef × LinkStatus × Nat)) : Tidy (I.applyRows rows) R :=
  h.congr (applyRows_objs I rows) (applyRows_tasks I rows)

/-- One object is given a new status. -/
theorem setTask (h : Tidy I R) {o : Nat} {s : TaskStatus} (hR : ∀ t, R t → R' t)
    (h1 : Open s ∨ s = .ready → ∀ ob, I.objs[o]? = some ob → Blank ob)
    (h2 : Fin s → ∀ ob, I.objs[o]? = some ob → R' ob.task) : Tidy (I.setTaskStatus o s) R' := by
  unfold Inst.setTaskStatus
  cases ho : I.objs[o]? with
  | none => exact h.mono hR
  | some ob =>
    constructor
    · intro p x hp hx
      have hp : (I.objs.modify o (fun x => { x with status := s }))[p]? = some x := hp
      by_cases hpo : p = o
      · subst hpo
        rw [modify_at ho] at hp
        cases hp
        exact (h1 hx ob ho).status s
      · rw [modify_ne hpo] at hp
        exact h.blank p x hp hx
    · intro t p x ht hp hx
      have hp : (I.objs.modify o (fun x => { x with status := s }))[p]? = some x := hp
      by_cases hpo : p = o
      · subst hpo
        rw [modify_at ho] at hp
        cases hp
        exact h2 hx ob ho
      · rw [modify_ne hpo] at hp
        exact hR _ (h.left t p x ht hp hx)

theorem create (h : Tidy I R) (t : TaskRef) : Tidy (I.findOrCreateTask t).1 R := by
  unfold Inst.findOrCreateTask
  cases hg : I.tasks.get? t.id with
  | some o => exact h
  | none =>
    have key : ∀ (o : Nat) (ob : Obj), (I.objs ++ [{ task := t }])[o]? = some ob → I.objs[o]? = some ob ∨ ob = { task := t } := by
      intro o ob ho
      by_cases hlt : o < I.objs.length
      · rw [List.getElem?_append_left hlt] at ho; exact Or.inl ho
      · rw [List.getElem?_append_right (Nat.le_of_not_lt hlt)] at ho
        cases hz : o - I.objs.length with
        | zero => rw [hz] at ho; simp at ho; exact Or.inr ho.symm
        | succ k => rw [hz] at ho; simp at ho
    constructor
    · intro o ob ho hs
      rcases key o ob ho with h1 | h1
      · exact h.blank o ob h1 hs
      · rw [h1]; rfl
    · intro u o ob hu ho hs
      have hu : (I.tasks.set t.id I.objs.length).get? u = some o := hu
      rcases key o ob ho with h1 | h1
      · by_cases hut : u = t.id
        · subst hut
          rw [AMap.get?_set_self] at hu
          cases hu
          rw [List.getElem?_eq_none (Nat.le_refl _)] at h1; cases h1
        · rw [AMap.get?_set_ne _ _ (Ne.symm hut)] at hu
          exact h.left u o ob hu h1 hs
      · rw [h1] at hs; simp [Fin, TaskStatus.code] at hs

theorem create_obj (h : ∀ o ob, I.tasks.get? t.id = some o → I.objs[o]? = some ob → Blank ob) (ob : Obj)
    (ho : (I.findOrCreateTask t).1.objs[(I.findOrCreateTask t).2]? = some ob) : Blank ob := by
  unfold Inst.findOrCreateTask at ho
  cases hg : I.tasks.get? t.id with
  | some o => rw [hg] at ho; exact h o ob hg ho
  | none =>
    rw [hg] at ho
    have ho : (I.objs ++ [{ task := t }])[I.objs.length]? = some ob := ho
    simp at ho
    rw [← ho]; rfl

/-- A task is entered that has not begun. -/
theorem enter (h : Tidy I R) {t : TaskRef} (hb : ∀ o ob, I.tasks.get? t.id = some o → I.objs[o]? = some ob → Blank ob) (hR : ∀ t, R t → R' t)
    (hs : (I.enterTask t).2.2 = .skip → ∀ ob, (I.enterTask t).1.objs[(I.enterTask t).2.1]? = some ob → R' ob.task) :
    Tidy (I.enterTask t).1 R' := by
  have hc := h.create t
  have hbl := create_obj hb
  unfold Inst.enterTask at hs ⊢
  dsimp only at hs ⊢
  generalize (I.findOrCreateTask t).1 = J at *
  generalize (I.findOrCreateTask t).2 = o at *
  cases ho : J.objs[o]? with
  | none => exact hc.mono hR
  | some ob =>
    rw [ho] at hs
    dsimp only at hs ⊢
    have h1 : Tidy ((J.setTaskStatus o .entered).findLinks (J.defn.fromLinks ob.task)) R :=
      (hc.setTask (fun _ h => h) (fun _ => hbl) (fun hf => by simp [Fin, TaskStatus.code] at hf)).findLinks _
    have h2 : ∀ x, ((J.setTaskStatus o .entered).findLinks (J.defn.fromLinks ob.task)).objs[o]? = some x → Blank x := by
      intro x hx
      rw [findLinks_objs] at hx
      unfold Inst.setTaskStatus at hx
      rw [ho] at hx
      have hx : (J.objs.modify o (fun x => { x with status := .entered }))[o]? = some x := hx
      rw [modify_at ho] at hx
      cases hx
      exact (hbl ob ho).status _
    generalize (J.setTaskStatus o .entered).findLinks (J.defn.fromLinks ob.task) = K at *
    split
    · exact h1.mono hR
    · exact h1.setTask hR (fun _ => h2) (fun hf => by simp [Fin, TaskStatus.code] at hf)
    · rename_i hd
      rw [hd] at hs
      refine h1.setTask hR (fun hx => by rcases hx with hx | hx <;> simp [Open, TaskStatus.code] at hx) fun _ x hx => ?_
      refine hs rfl { x with status := .skipped } ?_
      unfold Inst.setTaskStatus
      rw [hx]
      dsimp only
      exact modify_at hx

theorem release (h : Tidy I R) (t : TaskRef) (hR : ∀ u, R u → u = t ∨ R' u)
    (hid : ∀ u o ob, I.tasks.get? u = some o → I.objs[o]? = some ob → ob.task.id = u) : Tidy (I.release t) R' := by
  obtain ⟨h1, h2, _⟩ := Conc.release_facts I t
  constructor
  · intro o ob ho hs
    rw [h1] at ho
    exact h.blank o ob ho hs
  · intro u o ob hu ho hs
    rw [h1] at ho
    rw [h2, AMap.get?_del] at hu
    split at hu
    · cases hu
    · rename_i hne
      rcases hR _ (h.left u o ob hu ho hs) with hx | hx
      · exact absurd (by rw [← hx]; exact hid u o ob hu ho) hne
      · exact hx

end Tidy

/-- The frame that releases the task is on the stack. -/
def ToRelease (e : Eng) (t : TaskRef) : Prop := .release t ∈ e.stack

/-- The invariant of the top-level instance. -/
def Neat (e : Eng) (I : Inst) : Prop := Tidy I (ToRelease e)

variable {env : Env} {e : Eng} {I : Inst} {G : GS}

theorem finish_neat {t : TaskRef} {es : List TaskEntry} {rest : List Frame} {ntf : Bool} {R : TaskRef → Prop} (hI : e.insts[0]? = some I)
    (hh : I.host = none) (h : Tidy I R) (hR : ∀ u, R u → u = t ∨ .release u ∈ rest) :
    ∀ I', (e.finishTask 0 t ntf es rest).insts[0]? = some I' → Neat (e.finishTask 0 t ntf es rest) I' := by
  intro I' hI'
  unfold Eng.finishTask at hI' ⊢
  rw [hI] at hI' ⊢
  dsimp only at hI' ⊢
  have key : ∀ s : List Frame, .release t ∈ s → (∀ x ∈ rest, x ∈ s) → ∀ u, R u → .release u ∈ s := by
    intro s h1 h2 u hu
    rcases hR u hu with rfl | hx
    · exact h1
    · exact h2 _ hx
  split at hI'
  · rename_i hc
    rw [if_pos hc]
    dsimp only at hI'
    rw [(complete_own hI (fun a b hc => by rw [hh] at hc; cases hc)).1] at hI'
    cases hI'
    exact (h.congr (I' := I.setFlowStatus .completed) rfl rfl).mono (key _ (by simp) (fun x hx => by simp [hx]))
  · rename_i hc
    rw [if_neg hc]
    dsimp only at hI'
    rw [hI] at hI'; cases hI'
    exact h.mono (key _ (by simp) (fun x hx => by simp [hx]))

theorem enterTask_skip {t : TaskRef} (h : (I.enterTask t).2.2 = .skip) : ∃ ob, (I.enterTask t).1.objs[(I.enterTask t).2.1]? = some ob := by
  unfold Inst.enterTask at h ⊢
  dsimp only at h ⊢
  generalize (I.findOrCreateTask t).1 = J at *
  generalize (I.findOrCreateTask t).2 = o at *
  cases ho : J.objs[o]? with
  | none => rw [ho] at h; cases h
  | some ob =>
    rw [ho] at h
    dsimp only at h ⊢
    have h2 : ∃ x, ((J.setTaskStatus o .entered).findLinks (J.defn.fromLinks ob.task)).objs[o]? = some x := by
      rw [findLinks_objs]
      unfold Inst.setTaskStatus
      rw [ho]
      exact ⟨_, modify_at ho⟩
    generalize (J.setTaskStatus o .entered).findLinks (J.defn.fromLinks ob.task) = K at *
    obtain ⟨x, hx⟩ := h2
    split at h
    · cases h
    · cases h
    · unfold Inst.setTaskStatus
      rw [hx]
      exact ⟨_, modify_at hx⟩

/-- All tasks of the instance are start tasks that have not begun. -/
structure Begun (I : Inst) : Prop where
  obj : ∀ (o : Nat) (ob : Obj), I.objs[o]? = some ob → Blank ob ∧ ¬ Fin ob.status ∧ I.defn.fromLinks ob.task = []

theorem Begun.tidy (h : Begun I) (R : TaskRef → Prop) : Tidy I R :=
  ⟨fun o ob ho _ => (h.obj o ob ho).1, fun _ o ob _ ho hf => absurd hf (h.obj o ob ho).2.1⟩

theorem Begun.setTask (h : Begun I) (o : Nat) {s : TaskStatus} (hs : ¬ Fin s) : Begun (I.setTaskStatus o s) := by
  unfold Inst.setTaskStatus
  cases ho : I.objs[o]? with
  | none => exact h
  | some ob =>
    constructor
    intro p x hp
    have hp : (I.objs.modify o (fun x => { x with status := s }))[p]? = some x := hp
    by_cases hpo : p = o
    · subst hpo
      rw [modify_at ho] at hp
      cases hp
      exact ⟨(h.obj p ob ho).1.status s, hs, (h.obj p ob ho).2.2⟩
    · rw [modify_ne hpo] at hp
      exact h.obj p x hp

theorem Begun.create (h : Begun I) (t : TaskRef) (ht : I.defn.fromLinks t = []) : Begun (I.findOrCreateTask t).1 := by
  unfold Inst.findOrCreateTask
  cases hg : I.tasks.get? t.id with
  | some o => exact h
  | none =>
    constructor
    intro o ob ho
    have ho : (I.objs ++ [{ task := t }])[o]? = some ob := ho
    by_cases hlt : o < I.objs.length
    · rw [List.getElem?_append_left hlt] at ho; exact h.obj o ob ho
    · rw [List.getElem?_append_right (Nat.le_of_not_lt hlt)] at ho
      cases hz : o - I.objs.length with
      | zero =>
        rw [hz] at ho; simp at ho; rw [← ho]
        exact ⟨rfl, by simp [Fin, TaskStatus.code], ht⟩
      | succ k => rw [hz] at ho; simp at ho

theorem Begun.enter (h : Begun I) (t : TaskRef) (ht : I.defn.fromLinks t = []) : Begun (I.enterTask t).1 := by
  have hc := h.create t ht
  unfold Inst.enterTask
  dsimp only
  generalize (I.findOrCreateTask t).1 = J at *
  generalize (I.findOrCreateTask t).2 = o at *
  cases ho : J.objs[o]? with
  | none => exact hc
  | some ob =>
    dsimp only
    rw [(hc.obj o ob ho).2.2]
    exact (hc.setTask o (by simp [Fin, TaskStatus.code])).setTask o (by simp [Fin, TaskStatus.code])

theorem Begun.start (es : List TaskEntry) : ∀ (e : Eng) (I : Inst), e.insts[0]? = some I → Begun I → (∀ x ∈ es, I.defn.fromLinks x.task = []) →
    ∀ I', (enterStart env e 0 es).insts[0]? = some I' → Begun I' := by
  induction es with
  | nil =>
    intro e I hI h _ I' hI'
    have hI' : e.insts[0]? = some I' := hI'
    rw [hI] at hI'; cases hI'
    exact h
  | cons x xs ih =>
    intro e I hI h hx I' hI'
    unfold enterStart at hI'
    rw [hI] at hI'
    dsimp only at hI'
    have h1 : (e.modI 0 (fun _ => (I.enterTask x.task).1)).insts[0]? = some (I.enterTask x.task).1 := modI_self hI _
    have h2 := h.enter x.task (hx x List.mem_cons_self)
    have h3 : ∀ y ∈ xs, (I.enterTask x.task).1.defn.fromLinks y.task = [] := by
      rw [(Calm.enterTask I x.task).defn]
      exact fun y hy => hx y (List.mem_cons_of_mem _ hy)
    split at hI'
    · split at hI'
      · exact ih _ _ (show ((e.modI 0 (fun _ => (I.enterTask x.task).1)).schedule 0 _).insts[0]? = _ from h1) h2 h3 I' hI'
      · rw [h1] at hI'; cases hI'; exact h2
    · exact ih _ _ h1 h2 h3 I' hI'

/-- One task was evaluated and gets its new status. -/
theorem Tidy.evaluated {J K : Inst} {o : Nat} {ob : Obj} (h : Tidy I (fun _ => False)) (hs : SameInst o I K) (hob : I.objs[o]? = some ob)
    (hjo : J.objs = K.objs) (hjt : J.tasks = K.tasks)
    {s : TaskStatus} {R : TaskRef → Prop} (h1 : ¬ (Open s ∨ s = .ready)) (h2 : Fin s → R ob.task) : Tidy (J.setTaskStatus o s) R := by
  obtain ⟨x, hx, hxt, _⟩ := hs.task_eq' hob
  rw [← hjo] at hx
  unfold Inst.setTaskStatus
  rw [hx]
  dsimp only
  constructor
  · intro p y hp hy
    have hp : (J.objs.modify o (fun x => { x with status := s }))[p]? = some y := hp
    by_cases hpo : p = o
    · subst hpo
      rw [modify_at hx] at hp
      cases hp
      exact absurd hy h1
    · rw [modify_ne hpo, hjo, hs.other p hpo] at hp
      exact h.blank p y hp hy
  · intro t p y ht hp hy
    have hp : (J.objs.modify o (fun x => { x with status := s }))[p]? = some y := hp
    by_cases hpo : p = o
    · subst hpo
      rw [modify_at hx] at hp
      cases hp
      rw [show ({ x with status := s } : Obj).task = ob.task from hxt]
      exact h2 hy
    · rw [modify_ne hpo, hjo, hs.other p hpo] at hp
      rw [show AMap.get? _ t = I.tasks.get? t from congrArg (AMap.get? · t) (hjt.trans hs.tasks)] at ht
      exact absurd (h.left t p y ht hp hy) id

theorem Neat.init (id uri : String) (d : Def) (ins : AMap String Val) : ∀ I, (Eng.init env id uri d ins).insts[0]? = some I →
    Neat (Eng.init env id uri d ins) I := by
  intro I hI
  have hn : (Eng.new id uri d).insts[0]? = some { defn := d, uri := uri } := rfl
  unfold Eng.init Eng.startInstance at hI
  rw [hn] at hI
  dsimp only at hI
  refine (Begun.start _ _ _ (modI_self hn _) ⟨fun o ob ho => ?_⟩ (fun x hx => ?_) I hI).tidy _
  · have ho : ([] : List Obj)[o]? = some ob := ho
    simp at ho
  · obtain ⟨t, h1, rfl⟩ := List.mem_map.1 hx
    have h2 := (List.mem_filter.1 h1).2
    simp at h2
    exact h2

theorem Neat.step (hset : SettingsOk env) (ok : EngOK e) (hI : e.insts[0]? = some I) (hlf : Leaf I.defn.main)
    (hb : ∀ t ∈ I.defn.main.tasks, t.kind = .basic) (hl : Loc env e 0 I) (hu : Undisturbed I) (hcur : e.stack = [] ∨ e.cur = 0) (h1 : e.insts.length = 1)
    (h : Neat e I) {I' : Inst} (hI' : (e.step env).insts[0]? = some I') (hu' : Undisturbed I') : Neat (e.step env) I' := by
  obtain ⟨G, hIS, hfr⟩ := hl
  have iok := ok.ok 0 I hI
  have hhost := ok.host0 I hI
  by_cases hst : e.stack = []
  · cases hn : Spec.next env e with
    | none =>
      rw [step_idle hst hn (by omega)] at hI' ⊢
      have hI' : e.insts[0]? = some I' := hI'
      rw [hI] at hI'; cases hI'
      exact h
    | some w =>
      have hw := List.mem_of_getElem? (next_some hn).2.2
      have hw0 : w.inst = 0 := by
        have := Readied.lt (ok.queue w hw)
        omega
      have hIS' : IS I.defn.main (Single I.defn.main) (Fact env I.defn.main w.inst) (Waits I.defn.main (Calmed e 0)) I (loadOf e w.inst) G := by
        rw [hw0]; exact hIS
      obtain ⟨t, ht, hlive, hwt, _, _⟩ := own_next hn hIS'
      have hrd : G.st t = .ready := by
        rcases hlive with hx | hx
        · exact hx
        · obtain ⟨td, h1, _, h3⟩ := hwt hx
          cases ha : td.act with
          | subflow u => exact absurd ha (hlf td h1 u)
          | _ => rw [ha] at h3; exact absurd rfl h3
      rw [step_next hn, hw0] at hI' ⊢
      have hst1 : (afterPop env e w).stack = [] := hst
      have hI1 : (afterPop env e w).insts[0]? = some I := hI
      obtain ⟨ob, hob, htask, hstat⟩ := hIS.sim.obj t _ ht
      rw [hrd] at hstat
      generalize afterPop env e w = f at *
      generalize w.obj = o at *
      unfold Eng.exec at hI' ⊢
      rw [obj?_eq hI1, hob] at hI' ⊢
      dsimp only at hI' ⊢
      cases htd : f.taskDef? 0 ob.task with
      | none =>
        rw [htd] at hI'
        dsimp only at hI' ⊢
        rw [hI1] at hI'; cases hI'
        exact h.mono fun u hx => by unfold ToRelease at hx; rw [hst] at hx; cases hx
      | some td =>
        rw [htd] at hI'
        dsimp only at hI' ⊢
        rw [hstat] at hI' ⊢
        dsimp only at hI' ⊢
        have htm : td ∈ I.defn.main.tasks := by
          unfold Eng.taskDef? at htd
          rw [hI1, htask] at htd
          exact List.mem_of_find?_eq_some htd
        have hev := Evals.evalActivity (env := env) (e0 := f) (i := 0) (o := o) (ob := ob) (by rw [obj?_eq hI1]; exact hob) (.refl f)
        obtain ⟨_, hev1, _, hev2, _⟩ := hev.obj
        obtain ⟨J, hJ, hsame⟩ := hev1 I hI1
        have hk : evalKind env f 0 o td = evalBasic env f 0 o := by
          unfold Eng.evalKind
          rw [hb td htm]
        rw [hk] at hI' ⊢
        unfold evalBasic at hI' ⊢
        generalize Eng.evalActivity env f 0 o = q at *
        obtain ⟨f1, r⟩ := q
        have hev2 : f1.stack = [] := hev2.trans hst1
        have hJ : f1.insts[0]? = some J := hJ
        have h0 : Tidy I (fun _ => False) := h.mono fun u hx => by unfold ToRelease at hx; rw [hst] at hx; cases hx
        have hglob : ∀ (g : Eng) (K : Inst) (err : Err), g.insts[0]? = some K → (g.globalError 0 err).insts[0]? = some I' → False := by
          intro g K err hK hx
          obtain ⟨L, h1, h2⟩ := globalError_handling (i := 0) hK err
          rw [hx] at h1; cases h1
          rw [hu'.1] at h2; cases h2
        cases r with
        | error err =>
          dsimp only at hI' ⊢
          unfold Eng.handleResult at hI' ⊢
          dsimp only at hI' ⊢
          unfold Eng.taskError at hI' ⊢
          rw [hJ] at hI' ⊢
          dsimp only at hI' ⊢
          have hE : ∀ R : TaskRef → Prop, R ob.task → Tidy (J.errorTask o ob.task).1 R := by
            intro R hR
            have h1 := (h0.evaluated hsame hob rfl rfl (s := .failed) (R := R) (by simp [Open, TaskStatus.code]) (fun _ => hR)).findLinks (J.defn.toLinks ob.task)
            unfold Inst.errorTask
            dsimp only
            split
            · exact h1
            · exact h1.applyRows _
          cases het : J.errorTask o ob.task with
          | mk I2 res =>
            rw [het] at hI' hE
            cases res with
            | none =>
              dsimp only at hI'
              rw [hsame.handling, hu.1, if_neg Bool.false_ne_true] at hI'
              exact (hglob _ _ _ (appendErrorData_self (modI_self hJ _) _ _) hI').elim
            | some es =>
              dsimp only at hI' ⊢
              rw [modI_self hJ] at hI'; cases hI'
              exact Tidy.congr (I := I2) (hE _ (show Frame.release _ ∈ [Frame.enter es, .release ob.task] by simp)) rfl rfl
        | ok b =>
          cases b with
          | false =>
            dsimp only at hI' ⊢
            unfold Eng.handleResult at hI' ⊢
            dsimp only at hI' ⊢
            unfold Eng.setStatus at hI' ⊢
            rw [modI_self hJ] at hI'; cases hI'
            exact h0.evaluated hsame hob rfl rfl (by simp [Open, TaskStatus.code]) (fun hf => by simp [Fin, TaskStatus.code] at hf)
          | true =>
            dsimp only at hI' ⊢
            unfold Eng.handleResult at hI' ⊢
            dsimp only at hI' ⊢
            unfold Eng.taskDone at hI' ⊢
            rw [hJ] at hI' ⊢
            dsimp only at hI' ⊢
            have hD : ∀ (ev : LinkDef → ExprOut) (R : TaskRef → Prop), R ob.task → Tidy (J.doneTask env.prio ev o ob.task).1 R := by
              intro ev R hR
              have h1 := h0.evaluated hsame hob (findLinks_objs (J.defn.toLinks ob.task) J) (findLinks_tasks J (J.defn.toLinks ob.task)) (s := .done) (R := R)
                (by simp [Open, TaskStatus.code]) (fun _ => hR)
              unfold Inst.doneTask
              dsimp only
              split <;> exact h1.applyRows _
            have hcalm := Calm.doneTask env.prio (env.link f1 0) J o ob.task
            cases hdt : J.doneTask env.prio (env.link f1 0) o ob.task with
            | mk I2 res =>
              have hD' := hD (env.link f1 0)
              rw [hdt] at hI' hD' hcalm
              cases res with
              | error m =>
                dsimp only at hI'
                exact (hglob _ _ _ (appendErrorData_self (modI_self hJ _) _ _) hI').elim
              | ok es =>
                dsimp only at hI' ⊢
                refine finish_neat (I := I2) (modI_self hJ _) ?_ (hD' (fun v => v = ob.task) rfl) (fun v hv => Or.inl hv) I' hI'
                rw [hcalm.host, hsame.host]; exact hhost
  · have hc0 : e.cur = 0 := hcur.resolve_left hst
    rw [if_pos hc0] at hfr
    have hopen := hIS.inv.tgt
    have htidy : Tidy I (ToRelease e) := h
    unfold ToRelease at htidy
    unfold Eng.step at hI' ⊢
    generalize hs : e.stack = s at hfr htidy
    generalize hk : G.stk = k at hfr
    rw [hs] at hI'
    cases hfr with
    | nil => exact absurd hs hst
    | @release s k u hfr =>
      dsimp only at hI' ⊢
      have h1 : (e.modI e.cur (fun I => I.release ⟨false, u⟩)).insts[0]? = some (I.release ⟨false, u⟩) := by rw [hc0]; exact modI_self hI _
      rw [h1] at hI'; cases hI'
      refine Tidy.release htidy _ (fun v hv => ?_) (fun v o ob h1 h2 => ?_)
      · rcases List.mem_cons.1 hv with hx | hx
        · cases hx; exact Or.inl rfl
        · exact Or.inr hx
      · obtain ⟨x, h3, h4⟩ := iok.tasks v o h1
        rw [h2] at h3; cases h3; exact h4
    | @enter s k u es hfr =>
      cases es with
      | nil =>
        dsimp only at hI' ⊢
        have hI' : e.insts[0]? = some I' := hI'
        rw [hI] at hI'; cases hI'
        exact htidy.mono fun v hv => by
          unfold ToRelease
          rcases List.mem_cons.1 hv with hx | hx
          · cases hx
          · exact hx
      | cons x xs =>
        dsimp only at hI' ⊢
        unfold Eng.enterEntry at hI' ⊢
        rw [hc0, hI] at hI' ⊢
        dsimp only at hI' ⊢
        have hI1 : (e.modI 0 (fun _ => (I.enterTask x.task).1)).insts[0]? = some (I.enterTask x.task).1 := modI_self hI _
        have hmem : (u, x :: xs) ∈ G.stk := by rw [hk]; exact List.mem_cons_self
        have hop := hopen _ hmem x List.mem_cons_self
        have hbl : ∀ o ob, I.tasks.get? x.task.id = some o → I.objs[o]? = some ob → Blank ob := by
          intro o ob h1 h2
          have hrel : G.rel x.task.id = false := by
            cases hr : G.rel x.task.id with
            | false => rfl
            | true => exact absurd (hIS.inv.relFin _ hr) hop.not_fin
          rw [(hIS.sim.tab _).2 hrel] at h1
          obtain ⟨ob', h3, _, h4⟩ := hIS.sim.obj _ _ h1
          rw [h2] at h3; cases h3
          exact h.blank o ob h2 (Or.inl (by rw [h4]; exact hop))
        have hsub : ∀ v, Frame.release v ∈ (Frame.enter (x :: xs) :: .release ⟨false, u⟩ :: s) → Frame.release v ∈ (Frame.enter xs :: .release ⟨false, u⟩ :: s) := by
          intro v hv
          rcases List.mem_cons.1 hv with hx | hx
          · cases hx
          · exact List.mem_cons_of_mem _ hx
        cases hd : (I.enterTask x.task).2.2 with
        | notReady =>
          rw [hd] at hI'
          dsimp only at hI' ⊢
          rw [hI1] at hI'; cases hI'
          exact htidy.enter hbl hsub (fun hx => by rw [hd] at hx; cases hx)
        | eval =>
          rw [hd] at hI'
          dsimp only at hI' ⊢
          rw [if_pos (hset _ _ _)] at hI' ⊢
          have hI' : (e.modI 0 (fun _ => (I.enterTask x.task).1)).insts[0]? = some I' := hI'
          rw [hI1] at hI'; cases hI'
          exact htidy.enter hbl hsub (fun hx => by rw [hd] at hx; cases hx)
        | skip =>
          rw [hd] at hI'
          dsimp only at hI' ⊢
          unfold Eng.taskSkipped at hI' ⊢
          rw [hI1] at hI' ⊢
          dsimp only at hI' ⊢
          have hE : Tidy (I.enterTask x.task).1 (fun v => Frame.release v ∈ (Frame.enter xs :: .release ⟨false, u⟩ :: s) ∨
              ∀ ob, (I.enterTask x.task).1.objs[(I.enterTask x.task).2.1]? = some ob → v = ob.task) :=
            htidy.enter hbl (fun v hv => Or.inl (hsub v hv)) (fun _ ob hob => Or.inr fun ob' h => by rw [hob] at h; cases h; rfl)
          have hsk := enterTask_skip hd
          have hdef := (Calm.enterTask I x.task).defn
          have hfo := (Calm.enterTask I x.task).force
          have hho := (Calm.enterTask I x.task).host
          generalize (I.enterTask x.task).1 = J at *
          generalize (I.enterTask x.task).2.1 = o at *
          obtain ⟨ob, hob⟩ := hsk
          rw [hob] at hI' ⊢
          dsimp only at hI' ⊢
          have hS : Tidy (J.skipTask o ob.task).1 (fun v => Frame.release v ∈ (Frame.enter xs :: .release ⟨false, u⟩ :: s) ∨ v = ob.task) := by
            unfold Inst.skipTask
            dsimp only
            refine ((hE.findLinks _).setTask (fun v hv => ?_) (fun hx => ?_) (fun _ y hy => ?_)).applyRows _
            · exact hv.imp id fun hx => hx ob hob
            · simp [Open, TaskStatus.code] at hx
            · rw [findLinks_objs, hob] at hy; cases hy
              exact Or.inr rfl
          have hcalm := Calm.skipTask J o ob.task
          cases hsk : J.skipTask o ob.task with
          | mk I2 es =>
            rw [hsk] at hI' hS hcalm
            dsimp only at hI' ⊢
            refine finish_neat (I := I2) (modI_self hI1 _) ?_ hS (fun v hv => hv.symm) I' hI'
            rw [hcalm.host, hho]; exact hhost

/-- In a flow without subflows there is no other instance. -/
theorem only_one (hset : SettingsOk env) (hr : Reachable env e) (hI : e.insts[0]? = some I) (hc : Covered I.defn.main) (hlf : Leaf I.defn.main)
    (hu : Undisturbed I) : e.insts.length = 1 ∧ (e.stack = [] ∨ e.cur = 0) := by
  obtain ⟨id, uri, d, ins, n, rfl⟩ := hr
  have ok := engOK_run (env := env) id uri d ins n
  have h1 := alone ok (noHost_leaf hset id uri d ins n 0 I hI hu hc hlf)
  have h2 := (List.getElem?_eq_some_iff.1 hI).1
  have hd := root_defn hI
  rw [hd] at hc hlf
  obtain ⟨G, _, _, _, h3, _⟩ := TInv.run hset hc hlf id uri ins (b := true) (fun hc => nomatch hc) n I hI hu
  exact ⟨by omega, h3⟩

theorem Neat.run (hset : SettingsOk env) (id uri : String) (d : Def) (hc : Covered d.main) (hlf : Leaf d.main)
    (hb : ∀ t ∈ d.main.tasks, t.kind = .basic) (ins : AMap String Val) (n : Nat) : ∀ I, (Eng.run env (Eng.init env id uri d ins) n).insts[0]? = some I →
    Undisturbed I → Neat (Eng.run env (Eng.init env id uri d ins) n) I := by
  induction n with
  | zero => intro I hI _; exact Neat.init id uri d ins I hI
  | succ n ih =>
    intro I' hI' hu'
    have hI' : (Eng.step env (Eng.run env (Eng.init env id uri d ins) n)).insts[0]? = some I' := hI'
    obtain ⟨I, hI⟩ := root_exists (env := env) (id := id) (uri := uri) (d := d) (ins := ins) n
    have hdf := root_defn hI
    have hr : Reachable env (Eng.run env (Eng.init env id uri d ins) n) := ⟨id, uri, d, ins, n, rfl⟩
    have ok := engOK_run (env := env) id uri d ins n
    obtain ⟨I2, h1, hx⟩ := (Eng.Good.step (env := env) _ ok).2 0 I hI
    rw [hI'] at h1; cases h1
    have hu : Undisturbed I := by
      constructor
      · cases hc : I.handling with
        | false => rfl
        | true => exact absurd ((hx.handling hc).symm.trans hu'.1) (by simp)
      · cases hc : I.force with
        | false => rfl
        | true => exact absurd ((hx.force hc).symm.trans hu'.2) (by simp)
    rw [← hdf] at hc hlf hb
    obtain ⟨h1, h2⟩ := only_one hset hr hI hc hlf hu
    exact Neat.step hset ok hI hlf hb (covered_loc hset hr hI hc hu (Or.inl hlf)) hu h2 h1 (ih I hI hu) hI' hu'

end Flow.GraphM
