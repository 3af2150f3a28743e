import Verif.Proofs.Step
import Verif.Spec.Handler

/-
Tasks of the error handler exist only after the error handler was started.
-/

namespace Flow

open Spec

structure EhInst (I : Inst) : Prop where
  objs : ∀ ob ∈ I.objs, ob.task.eh = true → .ehStart ∈ I.trace
  trace : HandlerLast I.trace
  links : ∀ k ∈ I.links.keys, (∃ l ∈ I.defn.main.links, l.id = k) ∨ .ehStart ∈ I.trace

/-- The links belong to the main flow, or the error handler was started. -/
def Own (I : Inst) (ls : List LinkDef) : Prop := ∀ l ∈ ls, l ∈ I.defn.main.links ∨ .ehStart ∈ I.trace

theorem Own.ext {I I' : Inst} {ls : List LinkDef} (h : Own I ls) (hd : I'.defn = I.defn) (hm : ∀ x, x ∈ I.trace → x ∈ I'.trace) : Own I' ls :=
  fun l hl => (h l hl).imp (fun h => by rw [hd]; exact h) (hm _)

theorem own_from {I : Inst} {t : TaskRef} (h : t.eh = true → .ehStart ∈ I.trace) : Own I (I.defn.fromLinks t) := by
  intro l hl
  unfold Def.fromLinks at hl
  cases he : t.eh with
  | true => exact .inr (h he)
  | false => rw [he] at hl; exact .inl (List.mem_filter.1 hl).1

theorem own_to {I : Inst} {t : TaskRef} (h : t.eh = true → .ehStart ∈ I.trace) : Own I (I.defn.toLinks t) := by
  intro l hl
  unfold Def.toLinks at hl
  cases he : t.eh with
  | true => exact .inr (h he)
  | false => rw [he] at hl; exact .inl (List.mem_filter.1 hl).1

theorem keys_set {K V : Type} [DecidableEq K] {m : AMap K V} {k k' : K} {v : V} (h : k' ∈ (m.set k v).keys) : k' = k ∨ k' ∈ m.keys := by
  induction m with
  | nil => exact .inl (List.mem_singleton.1 h)
  | cons p m ih =>
    obtain ⟨a, b⟩ := p
    have h : k' ∈ AMap.keys (if a = k then (k, v) :: m else (a, b) :: AMap.set m k v) := h
    split at h
    · rcases List.mem_cons.1 h with h | h
      · exact .inl h
      · exact .inr (List.mem_cons_of_mem _ h)
    · rcases List.mem_cons.1 h with h | h
      · exact .inr (by rw [h]; exact List.mem_cons_self ..)
      · exact (ih h).imp id fun h => List.mem_cons_of_mem _ h

theorem keys_del {K V : Type} [DecidableEq K] {m : AMap K V} {k k' : K} (h : k' ∈ (m.del k).keys) : k' ∈ m.keys := by
  unfold AMap.keys AMap.del at *
  obtain ⟨p, hp, rfl⟩ := List.mem_map.1 h
  exact List.mem_map_of_mem (List.mem_filter.1 hp).1

theorem handlerLast_append {tr : List Ev} (h : HandlerLast tr) : ∀ evs : List Ev,
    (∀ ev ∈ evs, ∀ t, evTask ev = some t → t.eh = true → .ehStart ∈ tr) → HandlerLast (evs ++ tr)
  | [], _ => h
  | ev :: evs, hev => ⟨fun t ht he => List.mem_append_right _ (hev ev (by simp) t ht he),
      handlerLast_append h evs fun x hx => hev x (by simp [hx])⟩

namespace EhInst

theorem of {I I' : Inst} (h : EhInst I) {evs : List Ev} (ht : I'.trace = evs ++ I.trace)
    (hev : ∀ ev ∈ evs, ∀ t, evTask ev = some t → (∃ ob ∈ I.objs, ob.task = t) ∨ t.eh = false)
    (ho : ∀ ob' ∈ I'.objs, (∃ ob ∈ I.objs, ob.task = ob'.task) ∨ (ob'.task.eh = true → .ehStart ∈ I.trace))
    (hd : I'.defn = I.defn := by rfl)
    (hl : ∀ k ∈ I'.links.keys, k ∈ I.links.keys ∨ (∃ l ∈ I.defn.main.links, l.id = k) ∨ .ehStart ∈ I.trace := by exact fun _ h => .inl h) : EhInst I' := by
  refine ⟨fun ob' hob he => ?_, ?_, fun k hk => ?_⟩
  · rw [ht]
    refine List.mem_append_right _ ?_
    rcases ho ob' hob with ⟨ob, h1, h2⟩ | h1
    · exact h.objs ob h1 (by rw [h2]; exact he)
    · exact h1 he
  · rw [ht]
    refine handlerLast_append h.trace evs fun ev hx t h1 h2 => ?_
    rcases hev ev hx t h1 with ⟨ob, h3, h4⟩ | h3
    · exact h.objs ob h3 (by rw [h4]; exact h2)
    · rw [h3] at h2; cases h2
  · rw [ht, hd]
    have h1 : (∃ l ∈ I.defn.main.links, l.id = k) ∨ .ehStart ∈ I.trace := (hl k hk).elim (h.links k) id
    exact h1.imp id fun h => List.mem_append_right _ h

/-- Nothing but events that are not about tasks. -/
theorem evs {I I' : Inst} (h : EhInst I) {evs : List Ev} (ht : I'.trace = evs ++ I.trace) (hev : ∀ ev ∈ evs, evTask ev = none)
    (ho : I'.objs = I.objs) (hd : I'.defn = I.defn := by rfl)
    (hl : ∀ k ∈ I'.links.keys, k ∈ I.links.keys ∨ (∃ l ∈ I.defn.main.links, l.id = k) ∨ .ehStart ∈ I.trace := by exact fun _ h => .inl h) : EhInst I' :=
  h.of ht (fun ev hx t h1 => by rw [hev ev hx] at h1; cases h1) (fun ob' hob => .inl ⟨ob', by rw [← ho]; exact hob, rfl⟩) hd hl

theorem mem_modify {l : List Obj} {o : Nat} {f : Obj → Obj} (hf : ∀ x, (f x).task = x.task) {ob' : Obj} (h : ob' ∈ l.modify o f) :
    ∃ ob ∈ l, ob.task = ob'.task := by
  obtain ⟨m, hm⟩ := List.mem_iff_getElem?.mp h
  rw [List.getElem?_modify] at hm
  cases hl : l[m]? with
  | none => rw [hl] at hm; split at hm <;> cases hm
  | some ob =>
    rw [hl] at hm
    refine ⟨ob, List.mem_of_getElem? hl, ?_⟩
    split at hm <;> cases hm
    · exact (hf ob).symm
    · rfl

theorem setTaskStatus {I : Inst} (h : EhInst I) (o : Nat) (s : TaskStatus) : EhInst (I.setTaskStatus o s) := by
  unfold Inst.setTaskStatus
  split
  · exact h
  · rename_i ob hob
    refine h.of (evs := [.taskStatus o ob.task s]) rfl ?_ fun _ hob' => .inl (mem_modify (o := o) (f := fun x => { x with status := s }) (fun _ => rfl) hob')
    intro ev hev t ht
    cases List.mem_singleton.mp hev
    cases ht
    exact .inl ⟨ob, List.mem_of_getElem? hob, rfl⟩

theorem modO {I : Inst} (h : EhInst I) (o : Nat) (f : Obj → Obj) (hf : ∀ x, (f x).task = x.task) : EhInst (I.modO o f) :=
  h.of (evs := []) rfl (fun _ h => nomatch h) fun _ hob' => .inl (mem_modify hf hob')

theorem setFlowStatus {I : Inst} (h : EhInst I) (s : FlowStatus) : EhInst (I.setFlowStatus s) :=
  h.evs (evs := [.flowStatus s]) rfl (fun ev hev => by cases List.mem_singleton.mp hev; rfl) rfl

theorem findLinks (ls : List LinkDef) : ∀ {I : Inst}, EhInst I → Own I ls → EhInst (I.findLinks ls) := by
  induction ls with
  | nil => exact fun h _ => h
  | cons l ls ih =>
    intro I h hw
    refine ih (I := I.findLink l.id) ?_ (Own.ext (fun m hm => hw m (List.mem_cons_of_mem _ hm)) (Ext.findLink l.id).defn fun _ => (Ext.findLink l.id).mem)
    unfold Inst.findLink
    split
    · exact h
    · refine h.evs (evs := [.linkAdded l.id]) rfl (fun ev hev => by cases List.mem_singleton.mp hev; rfl) rfl rfl fun k hk => ?_
      rcases keys_set hk with rfl | hk
      · exact .inr ((hw l (List.mem_cons_self ..)).imp (fun h => ⟨l, h, rfl⟩) id)
      · exact .inl hk

theorem applyRows (rs : List (LinkDef × LinkStatus × Nat)) {ls : List LinkDef} (hrs : ∀ r ∈ rs, r.1 ∈ ls) :
    ∀ {I : Inst}, EhInst I → Own I ls → EhInst (I.applyRows rs) := by
  induction rs with
  | nil => exact fun h _ => h
  | cons r rs ih =>
    intro I h hw
    refine ih (fun r hr => hrs r (List.mem_cons_of_mem _ hr)) (I := I.setLink r.1.id r.2.1) ?_ (hw.ext rfl fun _ hx => List.mem_cons_of_mem _ hx)
    refine h.evs (evs := [.linkStatus r.1.id r.2.1]) rfl (fun ev hev => by cases List.mem_singleton.mp hev; rfl) rfl rfl fun k hk => ?_
    rcases keys_set hk with rfl | hk
    · exact .inr ((hw r.1 (hrs r (List.mem_cons_self ..))).imp (fun h => ⟨r.1, h, rfl⟩) id)
    · exact .inl hk

theorem findTask {I : Inst} (h : EhInst I) {t : TaskRef} (ht : t.eh = true → .ehStart ∈ I.trace) : EhInst (I.findOrCreateTask t).1 := by
  unfold Inst.findOrCreateTask
  split
  · exact h
  · refine h.of (evs := [.taskAdded I.objs.length t.id]) rfl (fun ev hev u hu => by cases List.mem_singleton.mp hev; cases hu) fun ob' hob => ?_
    rcases List.mem_append.mp hob with hob | hob
    · exact .inl ⟨ob', hob, rfl⟩
    · cases List.mem_singleton.mp hob; exact .inr ht

theorem enterTask {I : Inst} (h : EhInst I) {t : TaskRef} (ht : t.eh = true → .ehStart ∈ I.trace) : EhInst (I.enterTask t).1 := by
  unfold Inst.enterTask
  dsimp only
  have h1 := h.findTask ht
  split
  · exact h1
  · rename_i ob hob
    have hw : Own ((I.findOrCreateTask t).1.setTaskStatus (I.findOrCreateTask t).2 .entered) ((I.findOrCreateTask t).1.defn.fromLinks ob.task) :=
      (own_from fun he => h1.objs ob (List.mem_of_getElem? hob) he).ext Ext.enter.defn fun _ => Ext.enter.mem
    have h2 := (h1.setTaskStatus (I.findOrCreateTask t).2 .entered).findLinks _ hw
    split
    · exact h2
    · exact h2.setTaskStatus _ _
    · exact h2.setTaskStatus _ _

theorem release {I : Inst} (h : EhInst I) (t : TaskRef) : EhInst (I.release t) := by
  unfold Inst.release
  have h1 : EhInst { I with tasks := I.tasks.del t.id, trace := .taskRemoved t.id :: I.trace } :=
    h.evs (evs := [.taskRemoved t.id]) rfl (fun ev hev => by cases List.mem_singleton.mp hev; rfl) rfl
  revert h1
  generalize ({ I with tasks := I.tasks.del t.id, trace := .taskRemoved t.id :: I.trace } : Inst) = J
  generalize I.defn.fromLinks t = ls
  intro h1
  induction ls generalizing J with
  | nil => exact h1
  | cons l ls ih => exact ih _ (h1.evs (evs := [.linkRemoved l.id]) rfl (fun ev hev => by cases List.mem_singleton.mp hev; rfl) rfl rfl fun _ hk => .inl (keys_del hk))

theorem set_own {I : Inst} {ls : List LinkDef} (h : Own I ls) (o : Nat) (s : TaskStatus) : Own (I.setTaskStatus o s) ls := by
  unfold Inst.setTaskStatus
  split
  · exact h
  · exact h.ext rfl fun _ hx => List.mem_cons_of_mem _ hx

theorem find_own {I : Inst} {ls : List LinkDef} (h : Own I ls) (ls' : List LinkDef) : Own (I.findLinks ls') ls :=
  h.ext (Ext.findLinks ls').defn fun _ => (Ext.findLinks ls').mem

theorem doneTask {I : Inst} (h : EhInst I) (prio : Bool) (ev : LinkDef → ExprOut) (o : Nat) {t : TaskRef} (ht : t.eh = true → .ehStart ∈ I.trace) :
    EhInst (I.doneTask prio ev o t).1 := by
  have hw := own_to ht
  have hr := doneRows_rows prio ev (I.defn.toLinks t)
  have h1 := (h.findLinks _ hw).setTaskStatus o .done
  have h2 := set_own (find_own hw (I.defn.toLinks t)) o .done
  unfold Inst.doneTask
  dsimp only
  split
  · rename_i hx; rw [hx] at hr; exact h1.applyRows _ (fun r h => (hr r h).1) h2
  · rename_i hx; rw [hx] at hr; exact h1.applyRows _ (fun r h => (hr r h).1) h2

theorem errorTask {I : Inst} (h : EhInst I) (o : Nat) {t : TaskRef} (ht : t.eh = true → .ehStart ∈ I.trace) : EhInst (I.errorTask o t).1 := by
  have hw := own_to ht
  have h1 := (h.setTaskStatus o .failed).findLinks _ (set_own hw o .failed)
  have h2 := find_own (set_own hw o .failed) (I.defn.toLinks t)
  unfold Inst.errorTask
  dsimp only
  split
  · exact h1
  · rename_i rows hx
    refine h1.applyRows _ (fun r hr => ?_) h2
    unfold errorRows at hx
    split at hx
    · cases hx
      obtain ⟨l, hl, rfl⟩ := List.mem_map.1 hr
      split <;> exact hl
    · cases hx

theorem skipTask {I : Inst} (h : EhInst I) (o : Nat) {t : TaskRef} (ht : t.eh = true → .ehStart ∈ I.trace) : EhInst (I.skipTask o t).1 := by
  have hw := own_to ht
  refine ((h.findLinks _ hw).setTaskStatus o .skipped).applyRows _ (fun r hr => ?_) (set_own (find_own hw (I.defn.toLinks t)) o .skipped)
  unfold skipRows at hr
  obtain ⟨l, hl, rfl⟩ := List.mem_map.1 hr
  exact hl

theorem same {o : Nat} {I I' : Inst} (h : EhInst I) (hs : SameInst o I I') : EhInst I' := by
  obtain ⟨evs, h1, h2⟩ := hs.trace
  refine h.of h1 (fun ev hev t ht => ?_) (fun ob' hob => .inl ?_) hs.defn fun k hk => .inl (by rw [← hs.links]; exact hk)
  · obtain ⟨ob, h3, h4 | h4⟩ := h2 ev hev <;> subst h4 <;> cases ht <;> exact .inl ⟨ob, List.mem_of_getElem? h3, rfl⟩
  · obtain ⟨m, hm⟩ := List.mem_iff_getElem?.mp hob
    obtain ⟨ob, h3, h4, _⟩ := hs.task_eq hm
    exact ⟨ob, List.mem_of_getElem? h3, h4⟩

end EhInst

/-! ### Traces only grow -/

section Mem

variable {x : Ev}

theorem mem_setTaskStatus {I : Inst} (h : x ∈ I.trace) (o : Nat) (s : TaskStatus) : x ∈ (I.setTaskStatus o s).trace := by
  unfold Inst.setTaskStatus
  split
  · exact h
  · exact List.mem_cons_of_mem _ h

theorem mem_findLinks (ls : List LinkDef) : ∀ {I : Inst}, x ∈ I.trace → x ∈ (I.findLinks ls).trace := by
  induction ls with
  | nil => exact fun h => h
  | cons l ls ih =>
    intro I h
    refine ih (I := I.findLink l.id) ?_
    unfold Inst.findLink
    split
    · exact h
    · exact List.mem_cons_of_mem _ h

theorem mem_applyRows (rs : List (LinkDef × LinkStatus × Nat)) : ∀ {I : Inst}, x ∈ I.trace → x ∈ (I.applyRows rs).trace := by
  induction rs with
  | nil => exact fun h => h
  | cons r rs ih => exact fun {I} h => ih (I := I.setLink r.1.id r.2.1) (List.mem_cons_of_mem _ h)

theorem mem_doneTask {I : Inst} (h : x ∈ I.trace) (prio : Bool) (ev : LinkDef → ExprOut) (o : Nat) (t : TaskRef) :
    x ∈ (I.doneTask prio ev o t).1.trace := by
  unfold Inst.doneTask
  dsimp only
  split <;> exact mem_applyRows _ (mem_setTaskStatus (mem_findLinks _ h) o _)

theorem mem_errorTask {I : Inst} (h : x ∈ I.trace) (o : Nat) (t : TaskRef) : x ∈ (I.errorTask o t).1.trace := by
  unfold Inst.errorTask
  dsimp only
  split
  · exact mem_findLinks _ (mem_setTaskStatus h o _)
  · exact mem_applyRows _ (mem_findLinks _ (mem_setTaskStatus h o _))

theorem mem_skipTask {I : Inst} (h : x ∈ I.trace) (o : Nat) (t : TaskRef) : x ∈ (I.skipTask o t).1.trace :=
  mem_applyRows _ (mem_setTaskStatus (mem_findLinks _ h) o _)

theorem mem_enterTask {I : Inst} (h : x ∈ I.trace) (t : TaskRef) : x ∈ (I.enterTask t).1.trace := by
  have h1 : x ∈ (I.findOrCreateTask t).1.trace := by
    unfold Inst.findOrCreateTask
    split
    · exact h
    · exact List.mem_cons_of_mem _ h
  unfold Inst.enterTask
  dsimp only
  split
  · exact h1
  · split
    · exact mem_findLinks _ (mem_setTaskStatus h1 _ _)
    · exact mem_setTaskStatus (mem_findLinks _ (mem_setTaskStatus h1 _ _)) _ _
    · exact mem_setTaskStatus (mem_findLinks _ (mem_setTaskStatus h1 _ _)) _ _

end Mem

namespace Eng

variable {env : Env}

def AllEh (e : Eng) : Prop := ∀ (i : Nat) (I : Inst), e.insts[i]? = some I → EhInst I

namespace AllEh

theorem mod {e : Eng} (h : AllEh e) {i : Nat} (f : Inst → Inst) (hf : ∀ I, e.insts[i]? = some I → EhInst I → EhInst (f I)) :
    AllEh (e.modI i f) := by
  intro j J hJ
  rw [modI_getElem?] at hJ
  split at hJ
  · rename_i hij
    subst hij
    cases hI : e.insts[i]? with
    | none => rw [hI] at hJ; cases hJ
    | some I => rw [hI] at hJ; cases hJ; exact hf I hI (h i I hI)
  · exact h j J hJ

theorem ctl {e e' : Eng} (h : AllEh e) (hi : e'.insts = e.insts) : AllEh e' := by
  intro i I hI; rw [hi] at hI; exact h i I hI

theorem enterStart (i : Nat) (es : List TaskEntry) (hes : ∀ x ∈ es, x.task.eh = false) : ∀ {e : Eng}, AllEh e → AllEh (Eng.enterStart env e i es) := by
  induction es with
  | nil => exact fun h => h
  | cons x xs ih =>
    intro e h
    unfold Eng.enterStart
    split
    · exact h
    · rename_i I hI
      have h1 : AllEh (e.modI i (fun _ => (I.enterTask x.task).1)) := h.mod _ fun J hJ hE => by
        rw [hI] at hJ; cases hJ
        exact hE.enterTask fun he => by rw [hes x (by simp)] at he; cases he
      dsimp only
      split
      · split
        · exact ih (fun y hy => hes y (by simp [hy])) (h1.ctl rfl)
        · exact h1
      · exact ih (fun y hy => hes y (by simp [hy])) h1

theorem startInstance {e : Eng} (h : AllEh e) (i : Nat) (ins : AMap String Val) : AllEh (Eng.startInstance env e i ins) := by
  unfold Eng.startInstance
  split
  · exact h
  · rename_i I hI
    dsimp only
    refine enterStart _ _ ?_ (h.mod _ fun J hJ hE => ?_)
    · intro x hx
      unfold Inst.startEntries at hx
      obtain ⟨t, _, rfl⟩ := List.mem_map.mp hx
      rfl
    · rw [hI] at hJ; cases hJ
      exact hE.evs (evs := [.flowStatus .active]) rfl (fun ev hev => by cases List.mem_singleton.mp hev; rfl) rfl

theorem evals {i o : Nat} {s : Option String} {e e' : Eng} (hv : Evals env i o s e e') : AllEh e → AllEh e' := by
  induction hv with
  | refl e => exact fun h => h
  | inst e f hf => exact fun h => h.mod f fun I hI hE => hE.same (hf I hI)
  | reply e r => exact fun h => h.ctl rfl
  | sub e uri d inputs _ _ _ =>
    intro h
    refine startInstance ?_ _ _
    intro j J hJ
    by_cases hl : j < e.insts.length
    · rw [newEmbedded_getElem? _ _ _ _ _ hl] at hJ; exact h j J hJ
    · by_cases hl' : j = e.insts.length
      · subst hl'
        rw [newEmbedded_new] at hJ
        cases hJ
        exact ⟨(fun ob hob => nomatch hob), trivial, (fun k hk => nomatch hk)⟩
      · rw [List.getElem?_eq_none (by rw [newEmbedded_length]; omega)] at hJ; cases hJ
  | trans _ _ ih1 ih2 => exact fun h => ih2 (ih1 h)

theorem complete {e : Eng} (h : AllEh e) (i : Nat) : AllEh (e.complete i) := by
  have h1 : AllEh (e.modI i (fun J => J.setFlowStatus .completed)) := h.mod _ fun J _ hE => hE.setFlowStatus _
  unfold Eng.complete
  split
  · exact h
  · dsimp only
    split
    · exact h1
    · split
      · exact h1.ctl rfl
      · rename_i I _ _ _ hi ho _
        have h2 := h1.mod (i := hi) (fun H => H.modO ho (fun x => { x with outputs := I.returnData, returnError := none })) fun J _ hE => hE.modO _ _ fun _ => rfl
        exact h2.ctl rfl

theorem failHost {e : Eng} (h : AllEh e) (i : Nat) (err : Err) : AllEh (e.failHost i err) := by
  unfold Eng.failHost
  split
  · exact h
  · split
    · exact h
    · rename_i hi ho _
      have h2 := h.mod (i := hi) (fun H => H.modO ho (fun x => { x with returnError := some err })) fun J _ hE => hE.modO _ _ fun _ => rfl
      exact h2.ctl rfl

theorem errorData {e : Eng} (h : AllEh e) (i : Nat) (t : TaskId) (err : Err) : AllEh (e.appendErrorData i t err) :=
  h.mod _ fun _ _ hE => hE.evs (evs := []) rfl (fun _ h => nomatch h) rfl

end AllEh

/-- The entries still to be entered belong to the main flow, or the error handler was started. -/
def FrameEh (e : Eng) (fs : List Frame) : Prop :=
  ∀ es, .enter es ∈ fs → ∀ x ∈ es, x.task.eh = true → ∃ I, e.insts[e.cur]? = some I ∧ .ehStart ∈ I.trace

structure EhOK (e : Eng) : Prop where
  all : AllEh e
  stack : FrameEh e e.stack

theorem rowEntries_eh {eh : Bool} {rows : List (LinkDef × LinkStatus × Nat)} : ∀ x ∈ rowEntries eh rows, x.task.eh = eh := by
  intro x hx
  obtain ⟨r, _, rfl⟩ := List.mem_map.mp hx
  rfl

theorem globalError_eh {e : Eng} (h : AllEh e) (hs : e.stack = []) (i : Nat) (err : Err) : EhOK (e.globalError i err) := by
  have nil : ∀ {f : Eng}, AllEh f → f.stack = [] → EhOK f := fun hf hst => ⟨hf, by rw [hst]; exact fun _ h => nomatch h⟩
  unfold globalError
  split
  · exact nil h hs
  · rename_i I hI
    have h1 : AllEh (e.modI i (fun J => { J with handling := true })) :=
      h.mod _ fun _ _ hE => hE.evs (evs := []) rfl (fun _ h => nomatch h) rfl
    split
    · exact nil (h.mod _ fun J _ hE => hE.setFlowStatus _) hs
    · dsimp only
      split
      · have h2 : AllEh (((e.modI i (fun J => { J with handling := true })).modI 0 (fun J => J.clearTasks)).modI i
            (fun J => { J with trace := .ehStart :: J.trace })) := by
          refine (h1.mod _ fun J _ hE => ?_).mod _ fun J _ hE => ?_
          · exact hE.evs (evs := [.cleared]) rfl (fun ev hev => by cases List.mem_singleton.mp hev; rfl) rfl
          · exact hE.evs (evs := [.ehStart]) rfl (fun ev hev => by cases List.mem_singleton.mp hev; rfl) rfl
        refine ⟨h2.ctl rfl, fun es hes x hx _ => ?_⟩
        obtain ⟨J, hJ⟩ : ∃ J, ((e.modI i (fun J => { J with handling := true })).modI 0 (fun J => J.clearTasks)).insts[i]? = some J := by
          rw [modI_getElem?, modI_self hI]
          split <;> exact ⟨_, rfl⟩
        exact ⟨_, modI_self hJ _, List.mem_cons_self ..⟩
      · have h2 := h1.mod (i := i) (fun J => J.setFlowStatus .failed) fun J _ hE => hE.setFlowStatus _
        split
        · exact nil (h2.mod _ fun _ _ hE => hE.evs (evs := []) rfl (fun _ h => nomatch h) rfl) hs
        · refine nil (h2.failHost _ _) ?_
          unfold failHost
          split
          · exact hs
          · split <;> exact hs

theorem finishTask_eh {e : Eng} (h : AllEh e) (i : Nat) (t : TaskRef) (b : Bool) {es : List TaskEntry} {rest : List Frame} {I : Inst}
    (hI : e.insts[i]? = some I) (hes : ∀ x ∈ es, x.task.eh = true → .ehStart ∈ I.trace)
    (hrest : ∀ es', .enter es' ∈ rest → ∀ x ∈ es', x.task.eh = true → .ehStart ∈ I.trace) :
    EhOK (e.finishTask i t b es rest) := by
  unfold finishTask
  rw [hI]
  dsimp only
  split
  · refine ⟨(h.complete i).ctl rfl, fun es' hes' x hx he => ?_⟩
    have h1 : .enter es' ∈ rest := by
      rcases List.mem_cons.mp hes' with h | h
      · cases h
      · exact h
    have h2 := hrest es' h1 x hx he
    have h3 : ∃ I', (e.complete i).insts[i]? = some I' ∧ ∃ evs, I'.trace = evs ++ I.trace := by
      unfold complete
      rw [hI]
      dsimp only
      have a := modI_self hI (fun J => J.setFlowStatus .completed)
      split
      · exact ⟨_, a, [_], rfl⟩
      · split
        · exact ⟨_, a, [_], rfl⟩
        · rename_i hi ho _
          change ∃ I', ((e.modI i (fun J => J.setFlowStatus .completed)).modI hi _).insts[i]? = some I' ∧ _
          rw [modI_getElem?, a]
          split <;> exact ⟨_, rfl, [_], rfl⟩
    obtain ⟨I', h4, evs, h5⟩ := h3
    exact ⟨I', h4, by rw [h5]; exact List.mem_append_right _ h2⟩
  · refine ⟨h.ctl rfl, fun es' hes' x hx he => ⟨I, hI, ?_⟩⟩
    rcases List.mem_cons.mp hes' with h' | h'
    · cases h'; exact hes x hx he
    · rcases List.mem_cons.mp h' with h' | h'
      · cases h'
      · exact hrest es' h' x hx he

theorem EhOK.nil {e : Eng} (h : AllEh e) (hs : e.stack = []) : EhOK e := ⟨h, by rw [hs]; exact fun _ h => nomatch h⟩

theorem handle_eh {e : Eng} (h : AllEh e) (hs : e.stack = []) {i o : Nat} {I : Inst} (hI : e.insts[i]? = some I) {ob : Obj}
    (hob : I.objs[o]? = some ob) {t : TaskRef} (ht : ob.task = t) (name : String) (r : EvalOut) : EhOK (handleResult env e i o t name r) := by
  have hE := h i I hI
  have heh : t.eh = true → .ehStart ∈ I.trace := fun he => hE.objs ob (List.mem_of_getElem? hob) (by rw [ht]; exact he)
  have hrow : ∀ {rows : List (LinkDef × LinkStatus × Nat)}, ∀ x ∈ sortEntries (rowEntries t.eh rows), x.task.eh = true → .ehStart ∈ I.trace := by
    intro rows x hx he
    rw [rowEntries_eh x ((sortEntries_perm _).mem_iff.mp hx)] at he
    exact heh he
  have hset : ∀ I1, EhInst I1 → AllEh (e.modI i (fun _ => I1)) := fun I1 h1 => h.mod _ fun _ _ _ => h1
  have hdone : EhOK (taskDone env e i o t) := by
    unfold taskDone
    rw [hI]
    dsimp only
    have h1 := hE.doneTask env.prio (env.link e i) o heh
    have h2 : ∀ es, (I.doneTask env.prio (env.link e i) o t).2 = .ok es → ∀ x ∈ es, x.task.eh = true →
        .ehStart ∈ (I.doneTask env.prio (env.link e i) o t).1.trace := by
      intro es hes x hx he
      refine mem_doneTask ?_ _ _ _ _
      unfold Inst.doneTask at hes
      dsimp only at hes
      split at hes
      · cases hes
      · cases hes; exact hrow x hx he
    generalize I.doneTask env.prio (env.link e i) o t = q at h1 h2
    obtain ⟨I1, y⟩ := q
    cases y with
    | error m => exact globalError_eh ((hset I1 h1).errorData _ _ _) hs _ _
    | ok es => exact finishTask_eh (hset I1 h1) i t _ (modI_self hI _) (h2 es rfl) fun _ h => nomatch h
  cases r with
  | err er =>
    unfold handleResult taskError
    dsimp only
    rw [hI]
    dsimp only
    have h1 := hE.errorTask o heh
    have h2 : ∀ es, (I.errorTask o t).2 = some es → ∀ x ∈ es, x.task.eh = true → .ehStart ∈ (I.errorTask o t).1.trace := by
      intro es hes x hx he
      refine mem_errorTask ?_ _ _
      unfold Inst.errorTask at hes
      dsimp only at hes
      split at hes
      · cases hes
      · cases hes; exact hrow x hx he
    generalize I.errorTask o t = q at h1 h2
    obtain ⟨I1, y⟩ := q
    cases y with
    | some es =>
      dsimp only
      refine ⟨?_, fun es' hes' x hx he => ⟨_, modI_self hI _, ?_⟩⟩
      · exact hset _ (h1.evs (evs := []) rfl (fun _ h => nomatch h) rfl)
      · rcases List.mem_cons.mp hes' with h' | h'
        · cases h'; exact h2 es rfl x hx he
        · cases List.mem_singleton.mp h'
    | none =>
      dsimp only
      split
      · have h3 := (hset I1 h1).mod (i := i) (fun J => J.setFlowStatus .failed) fun J _ hE => hE.setFlowStatus _
        split
        · exact .nil (h3.errorData _ _ _) hs
        · exact .nil (h3.failHost _ _) ((failHost_stack _ _ _).trans hs)
      · exact globalError_eh ((hset I1 h1).errorData _ _ _) hs _ _
  | panic m =>
    unfold handleResult
    dsimp only
    rw [hI]
    dsimp only
    split
    · exact .nil h hs
    · exact globalError_eh (h.errorData _ _ _) hs _ _
  | res y =>
    have hst : ∀ s, EhOK (e.setStatus i o s) := fun s => .nil (h.mod _ fun J _ hE => hE.setTaskStatus o s) hs
    cases y with
    | done => exact hdone
    | skip => exact hdone
    | fail => exact hst _
    | wait => exact hst _
    | again => exact .nil (h.ctl rfl) hs

theorem evals_stack {i o : Nat} {s : Option String} {e e' : Eng} (hv : Evals env i o s e e') : e'.stack = e.stack := by
  induction hv with
  | refl e => rfl
  | inst e f _ => rfl
  | reply e r => rfl
  | sub e uri d inputs _ _ _ => exact (StartFrame.startInstance (env := env) e.insts.length (e.newEmbedded i o uri d) inputs).stack
  | trans _ _ ih1 ih2 => exact ih2.trans ih1

theorem step_eh {e : Eng} (h : EhOK e) : EhOK (e.step env) := by
  have pop : ∀ {f : Frame} {rest : List Frame}, e.stack = f :: rest → FrameEh e rest := fun hs es hes x hx he =>
    h.stack es (by rw [hs]; exact List.mem_cons_of_mem _ hes) x hx he
  cases hst : e.stack with
  | nil =>
    cases hn : next env e with
    | none =>
      by_cases hl : 0 < e.insts.length
      · rw [step_idle hst hn hl]; exact .nil (h.all.ctl rfl) hst
      · unfold step
        rw [hst]
        dsimp only
        unfold doStep
        rw [List.getElem?_eq_none (by omega)]
        exact h
    | some w =>
      rw [step_next hn]
      have hp : AllEh (afterPop env e w) := h.all.ctl rfl
      cases ho : outcome env (afterPop env e w) w.inst w.obj with
      | none => rw [exec_none ho]; exact .nil hp hst
      | some x =>
        obtain ⟨e', r⟩ := x
        obtain ⟨ob, hob⟩ : ∃ ob, (afterPop env e w).obj? w.inst w.obj = some ob := by
          unfold Spec.outcome at ho
          cases h : (afterPop env e w).obj? w.inst w.obj with
          | none => rw [h] at ho; cases ho
          | some ob => exact ⟨ob, rfl⟩
        obtain ⟨td, htd, hex⟩ := exec_outcome hob ho
        rw [hex]
        obtain ⟨J, hJ, hJo⟩ := obj?_some hob
        obtain ⟨J', hJ', _, _, _, _, _, _, _, _, hobjs⟩ := outcome_inst ho hJ
        obtain ⟨ob', hob', htask⟩ := hobjs w.obj ob hJo
        obtain ⟨e1, h1, h2⟩ := outcome_evals ho
        have h3 := AllEh.evals h1 hp
        have h4 : e1.stack = [] := (evals_stack h1).trans hst
        rcases h2 with rfl | ⟨st, rfl⟩
        · exact handle_eh h3 h4 hJ' hob' htask _ _
        · exact handle_eh (h3.mod _ fun J _ hE => hE.setTaskStatus _ st) h4 hJ' hob' htask _ _
  | cons f rest =>
    unfold step
    rw [hst]
    have hrest := pop hst
    cases f with
    | release t =>
      dsimp only
      refine ⟨AllEh.ctl (h.all.mod (i := e.cur) (fun I => I.release t) fun J _ hE => hE.release t) rfl, fun es hes x hx he => ?_⟩
      obtain ⟨I, hI, hm⟩ := hrest es hes x hx he
      refine ⟨_, modI_self hI _, ?_⟩
      obtain ⟨evs, hev⟩ := (Ext.release (I := I) t).trace
      rw [hev]
      exact List.mem_append_right _ hm
    | enter es =>
      cases es with
      | nil => exact ⟨h.all.ctl rfl, hrest⟩
      | cons x xs =>
        dsimp only
        unfold enterEntry
        cases hI : e.insts[e.cur]? with
        | none => exact ⟨h.all.ctl rfl, hrest⟩
        | some I =>
          dsimp only
          have hfr : ∀ es', .enter es' ∈ (.enter (x :: xs) :: rest : List Frame) → ∀ y ∈ es', y.task.eh = true → .ehStart ∈ I.trace := by
            intro es' hes' y hy he
            obtain ⟨I', hI', hm⟩ := h.stack es' (by rw [hst]; exact hes') y hy he
            rw [hI] at hI'
            cases hI'
            exact hm
          have hxt : x.task.eh = true → .ehStart ∈ I.trace := hfr _ (List.mem_cons_self ..) x (by simp)
          have hE := (h.all _ I hI).enterTask hxt
          have hm : .ehStart ∈ I.trace → .ehStart ∈ (I.enterTask x.task).1.trace := fun hm => mem_enterTask hm _
          have hall : AllEh (e.modI e.cur (fun _ => (I.enterTask x.task).1)) := h.all.mod _ fun _ _ _ => hE
          have hfr' : ∀ es', .enter es' ∈ (.enter xs :: rest : List Frame) → ∀ y ∈ es', y.task.eh = true → .ehStart ∈ (I.enterTask x.task).1.trace := by
            intro es' hes' y hy he
            refine hm ?_
            rcases List.mem_cons.mp hes' with h' | h'
            · cases h'; exact hfr _ (List.mem_cons_self ..) y (by simp [hy]) he
            · exact hfr es' (List.mem_cons_of_mem _ h') y hy he
          split
          · exact ⟨hall.ctl rfl, fun es' hes' y hy he => ⟨_, modI_self hI _, hfr' es' hes' y hy he⟩⟩
          · split
            · exact ⟨hall.ctl rfl, fun es' hes' y hy he => ⟨_, modI_self hI _, hfr' es' hes' y hy he⟩⟩
            · exact ⟨hall.ctl rfl, fun es' hes' y hy he => ⟨_, modI_self hI _, hfr' es' (List.mem_cons_of_mem _ hes') y hy he⟩⟩
          · unfold taskSkipped
            rw [modI_self hI]
            dsimp only
            split
            · exact ⟨hall.ctl rfl, fun es' hes' y hy he => ⟨_, modI_self hI _, hfr' es' hes' y hy he⟩⟩
            · rename_i ob hob
              have hsk := hE.skipTask (I.enterTask x.task).2.1 (t := ob.task) fun he => hE.objs ob (List.mem_of_getElem? hob) he
              refine finishTask_eh (AllEh.mod hall _ fun _ _ _ => hsk) _ _ _ (modI_self (modI_self hI _) _) ?_ ?_
              · intro y hy he
                refine mem_skipTask ?_ _ _
                rw [rowEntries_eh y hy] at he
                exact hE.objs ob (List.mem_of_getElem? hob) he
              · intro es' hes' y hy he
                exact mem_skipTask (hfr' es' hes' y hy he) _ _

theorem ehOK_reachable {e : Eng} (hr : Reachable env e) : EhOK e := by
  obtain ⟨id, uri, d, ins, n, rfl⟩ := hr
  induction n with
  | zero =>
    refine .nil (AllEh.startInstance ?_ _ _) ?_
    · intro i I hI
      cases i with
      | zero => cases hI; exact ⟨(fun ob hob => nomatch hob), trivial, (fun k hk => nomatch hk)⟩
      | succ i => cases hI
    · exact (StartFrame.startInstance (env := env) 0 (Eng.new id uri d) ins).stack
  | succ n ih => exact step_eh ih

end Eng

end Flow
