import Verif.Proofs.GraphRows
import Verif.Proofs.Step
import Verif.Spec.Ahead

/-
Every step stays within the tasks that lie ahead.
-/

namespace Flow
open Spec

/-- What happens to one instance while only tasks in `A` are entered and executed. -/
structure Onward (A : TaskRef → Prop) (I I' : Inst) : Prop where
  defn : I'.defn = I.defn
  host : I'.host = I.host
  handling : I.handling = true → I'.handling = true
  keep : ∀ (o : Nat) ob, I.objs[o]? = some ob → ∃ ob', I'.objs[o]? = some ob' ∧ ob'.task = ob.task
  objs : ∀ (o : Nat) ob', I'.objs[o]? = some ob' → (∃ ob, I.objs[o]? = some ob ∧ ob.task = ob'.task) ∨ A ob'.task
  tasks : ∀ k o, I'.tasks.get? k = some o → I.tasks.get? k = some o ∨ ∀ ob', I'.objs[o]? = some ob' → A ob'.task
  trace : ∃ new, I'.trace = new ++ I.trace ∧ ∀ ev ∈ new, ∀ t, ran ev = some t → A t

namespace Onward

variable {A : TaskRef → Prop} {I J K : Inst}

theorem trans (h : Onward A I J) (g : Onward A J K) : Onward A I K := by
  obtain ⟨n1, e1, k1⟩ := h.trace
  obtain ⟨n2, e2, k2⟩ := g.trace
  refine ⟨g.defn.trans h.defn, g.host.trans h.host, fun x => g.handling (h.handling x), fun o ob ho => ?_, fun o ob' ho => ?_,
    fun k o hk => ?_, n2 ++ n1, by rw [e2, e1, List.append_assoc], fun ev hev => ?_⟩
  · obtain ⟨b1, h1, t1⟩ := h.keep o ob ho
    obtain ⟨b2, h2, t2⟩ := g.keep o b1 h1
    exact ⟨b2, h2, t2.trans t1⟩
  · rcases g.objs o ob' ho with ⟨b1, h1, t1⟩ | h1
    · rcases h.objs o b1 h1 with ⟨b2, h2, t2⟩ | h2
      · exact Or.inl ⟨b2, h2, t2.trans t1⟩
      · exact Or.inr (t1 ▸ h2)
    · exact Or.inr h1
  · rcases g.tasks k o hk with h1 | h1
    · rcases h.tasks k o h1 with h2 | h2
      · exact Or.inl h2
      · refine Or.inr fun ob' ho => ?_
        rcases g.objs o ob' ho with ⟨b1, h3, t1⟩ | h3
        · exact t1 ▸ h2 b1 h3
        · exact h3
    · exact Or.inr h1
  · rcases List.mem_append.1 hev with h1 | h1
    · exact k2 ev h1
    · exact k1 ev h1

/-- Objects and the task table stay as they are. -/
theorem quiet (hd : J.defn = I.defn) (hh : J.host = I.host) (hg : I.handling = true → J.handling = true) (ho : J.objs = I.objs)
    (ht : ∀ k o, J.tasks.get? k = some o → I.tasks.get? k = some o) (new : List Ev) (hn : J.trace = new ++ I.trace)
    (hr : ∀ ev ∈ new, ran ev = none) : Onward A I J :=
  ⟨hd, hh, hg, fun o ob h => ⟨ob, by rw [ho]; exact h, rfl⟩, fun o ob h => Or.inl ⟨ob, by rw [← ho]; exact h, rfl⟩,
    fun k o h => Or.inl (ht k o h), new, hn, fun ev hev t h => by rw [hr ev hev] at h; cases h⟩

theorem refl (I : Inst) : Onward A I I := quiet rfl rfl id rfl (fun _ _ h => h) [] rfl nofun

theorem flowStatus (I : Inst) (s : FlowStatus) : Onward A I (I.setFlowStatus s) :=
  quiet rfl rfl id rfl (fun _ _ h => h) [.flowStatus s] rfl (fun ev h => by cases List.mem_singleton.1 h; rfl)

theorem clear (I : Inst) : Onward A I I.clearTasks :=
  quiet rfl rfl id rfl (fun _ _ h => by cases h) [.cleared] rfl (fun ev h => by cases List.mem_singleton.1 h; rfl)

theorem modO (I : Inst) (o : Nat) (f : Obj → Obj) (hf : ∀ x, (f x).task = x.task) : Onward A I (I.modO o f) := by
  refine ⟨rfl, rfl, id, fun p ob hp => ?_, fun p ob' hp => ?_, fun k o h => Or.inl h, [], rfl, nofun⟩
  · refine ⟨if o = p then f ob else ob, ?_, by split <;> simp [hf]⟩
    show (I.objs.modify o f)[p]? = _
    rw [List.getElem?_modify, hp]
    split <;> rfl
  · have hp' : (I.objs.modify o f)[p]? = some ob' := hp
    rw [List.getElem?_modify] at hp'
    cases hq : I.objs[p]? with
    | none => rw [hq] at hp'; cases hp'
    | some ob =>
      rw [hq] at hp'
      refine Or.inl ⟨ob, rfl, ?_⟩
      cases hp'
      split <;> simp [hf]

theorem event (I : Inst) (ev : Ev) (h : ran ev = none) : Onward A I { I with trace := ev :: I.trace } :=
  quiet rfl rfl id rfl (fun _ _ h => h) [ev] rfl (fun ev' h' => by cases List.mem_singleton.1 h'; exact h)

theorem setTaskStatus (I : Inst) (o : Nat) (s : TaskStatus) : Onward A I (I.setTaskStatus o s) := by
  unfold Inst.setTaskStatus
  split
  · exact refl I
  · rename_i ob ho
    have h1 : Onward A I (I.modO o (fun x => { x with status := s })) := modO I o _ (fun _ => rfl)
    exact h1.trans (quiet rfl rfl id rfl (fun _ _ h => h) [.taskStatus o ob.task s] rfl (fun ev h => by cases List.mem_singleton.1 h; rfl))

theorem findLinks (I : Inst) (ls : List LinkDef) : Onward A I (I.findLinks ls) := by
  unfold Inst.findLinks
  induction ls generalizing I with
  | nil => exact refl I
  | cons l ls ih =>
    refine Onward.trans (J := I.findLink l.id) ?_ (ih _)
    unfold Inst.findLink
    split
    · exact refl I
    · exact quiet rfl rfl id rfl (fun _ _ h => h) [.linkAdded l.id] rfl (fun ev h => by cases List.mem_singleton.1 h; rfl)

theorem applyRows (I : Inst) (rows : List (LinkDef × LinkStatus × Nat)) : Onward A I (I.applyRows rows) := by
  unfold Inst.applyRows
  induction rows generalizing I with
  | nil => exact refl I
  | cons r rs ih =>
    exact (quiet (I := I) (J := I.setLink r.1.id r.2.1) rfl rfl id rfl (fun _ _ h => h) [.linkStatus r.1.id r.2.1] rfl
      (fun ev h => by cases List.mem_singleton.1 h; rfl)).trans (ih _)

theorem release (I : Inst) (t : TaskRef) : Onward A I (I.release t) := by
  unfold Inst.release
  have h0 : Onward A I { I with tasks := I.tasks.del t.id, trace := .taskRemoved t.id :: I.trace } :=
    quiet rfl rfl id rfl (fun k o h => by
      have h' : (I.tasks.del t.id).get? k = some o := h
      rw [AMap.get?_del] at h'
      split at h'
      · cases h'
      · exact h') [.taskRemoved t.id] rfl (fun ev h => by cases List.mem_singleton.1 h; rfl)
  generalize ({ I with tasks := I.tasks.del t.id, trace := .taskRemoved t.id :: I.trace } : Inst) = J at h0
  generalize I.defn.fromLinks t = ls
  induction ls generalizing J with
  | nil => exact h0
  | cons l ls ih =>
    exact ih _ (h0.trans (quiet rfl rfl id rfl (fun _ _ h => h) [.linkRemoved l.id] rfl (fun ev h => by cases List.mem_singleton.1 h; rfl)))

theorem findOrCreateTask (I : Inst) {t : TaskRef} (ht : A t) : Onward A I (I.findOrCreateTask t).1 := by
  unfold Inst.findOrCreateTask
  split
  · exact refl I
  · have hnew : ∀ ob', (I.objs ++ [({ task := t } : Obj)])[I.objs.length]? = some ob' → A ob'.task := by
      intro ob' h
      simp at h
      rw [← h]; exact ht
    refine ⟨rfl, rfl, id, fun o ob ho => ⟨ob, ?_, rfl⟩, fun o ob' ho => ?_, fun k o hk => ?_, [.taskAdded I.objs.length t.id], rfl,
      fun ev h => by cases List.mem_singleton.1 h; nofun⟩
    · show (I.objs ++ _)[o]? = _
      rw [List.getElem?_append_left (List.getElem?_eq_some_iff.1 ho).1]; exact ho
    · have ho' : (I.objs ++ [({ task := t } : Obj)])[o]? = some ob' := ho
      rcases Nat.lt_trichotomy o I.objs.length with h | h | h
      · rw [List.getElem?_append_left h] at ho'; exact Or.inl ⟨ob', ho', rfl⟩
      · subst h; exact Or.inr (hnew ob' ho')
      · rw [List.getElem?_eq_none (by simp; omega)] at ho'; cases ho'
    · have hk' : (I.tasks.set t.id I.objs.length).get? k = some o := hk
      rw [AMap.get?_set] at hk'
      split at hk'
      · cases hk'; exact Or.inr hnew
      · exact Or.inl hk'

/-- The task is entered: the object has a task in `A`, which is closed under having the same entry. -/
theorem enterTask (I : Inst) {t : TaskRef} (ht : A t) (hs : ∀ o ob, I.tasks.get? t.id = some o → I.objs[o]? = some ob → A ob.task) :
    Onward A I (I.enterTask t).1 ∧ (∀ ob, (I.enterTask t).1.objs[(I.enterTask t).2.1]? = some ob → A ob.task) ∧
      ((I.enterTask t).2.2 = .eval → ∃ ob, (I.enterTask t).1.objs[(I.enterTask t).2.1]? = some ob) := by
  have hc := findOrCreateTask I ht
  have ho : ∀ ob, (I.findOrCreateTask t).1.objs[(I.findOrCreateTask t).2]? = some ob → A ob.task := by
    intro ob hob
    unfold Inst.findOrCreateTask at hob
    split at hob
    · rename_i o hg; exact hs o ob hg hob
    · simp at hob
      rw [← hob]; exact ht
  have carry : ∀ {J : Inst} {o : Nat}, (∀ ob, J.objs[o]? = some ob → A ob.task) → ∀ {K : Inst}, Onward A J K → ∀ ob, K.objs[o]? = some ob → A ob.task := by
    intro J o h K g ob hob
    rcases g.objs o ob hob with ⟨b, h1, h2⟩ | h1
    · exact h2 ▸ h b h1
    · exact h1
  unfold Inst.enterTask
  dsimp only
  split
  · exact ⟨hc, ho, nofun⟩
  · rename_i ob hob
    have h := (setTaskStatus (A := A) (I.findOrCreateTask t).1 (I.findOrCreateTask t).2 .entered).trans
      (findLinks _ ((I.findOrCreateTask t).1.defn.fromLinks ob.task))
    have there : ∀ {K : Inst}, Onward A (I.findOrCreateTask t).1 K → ∃ ob, K.objs[(I.findOrCreateTask t).2]? = some ob :=
      fun g => (g.keep _ _ hob).imp fun _ h => h.1
    split
    · exact ⟨hc.trans h, carry ho h, nofun⟩
    · have h2 := h.trans (setTaskStatus _ (I.findOrCreateTask t).2 .ready)
      exact ⟨hc.trans h2, carry ho h2, fun _ => there h2⟩
    · have h2 := h.trans (setTaskStatus _ (I.findOrCreateTask t).2 .skipped)
      exact ⟨hc.trans h2, carry ho h2, nofun⟩

theorem same {o : Nat} (h : SameInst o I J) (hA : ∀ ob, I.objs[o]? = some ob → A ob.task) : Onward A I J := by
  obtain ⟨evs, h1, h2⟩ := h.trace
  refine ⟨h.defn, h.host, fun x => h.handling.trans x, fun p ob hp => ?_, fun p ob' hp => ?_, fun k p hk => Or.inl (h.tasks ▸ hk), evs, h1,
    fun ev hev t ht => ?_⟩
  · obtain ⟨b, h3, h4, _⟩ := h.task_eq' hp; exact ⟨b, h3, h4⟩
  · obtain ⟨b, h3, h4, _⟩ := h.task_eq hp; exact Or.inl ⟨b, h3, h4⟩
  · obtain ⟨ob, h3, h4⟩ := h2 ev hev
    rcases h4 with h4 | h4 <;> subst h4 <;> cases ht <;> exact hA ob h3

theorem skipTask (I : Inst) (o : Nat) (t : TaskRef) : Onward A I (I.skipTask o t).1 :=
  ((findLinks I (I.defn.toLinks t)).trans (setTaskStatus _ o .skipped)).trans (applyRows _ _)

theorem doneTask (prio : Bool) (ev : LinkDef → ExprOut) (I : Inst) (o : Nat) (t : TaskRef) : Onward A I (I.doneTask prio ev o t).1 := by
  unfold Inst.doneTask
  dsimp only
  split <;> exact ((findLinks I (I.defn.toLinks t)).trans (setTaskStatus _ o .done)).trans (applyRows _ _)

theorem errorTask (I : Inst) (o : Nat) (t : TaskRef) : Onward A I (I.errorTask o t).1 := by
  unfold Inst.errorTask
  dsimp only
  split
  · exact (setTaskStatus I o .failed).trans (findLinks _ _)
  · exact ((setTaskStatus I o .failed).trans (findLinks _ _)).trans (applyRows _ _)

end Onward

/-- The entries lead to successors of the task. -/
theorem rowEntries_toward {d : Def} {t : TaskRef} {rows : List (LinkDef × LinkStatus × Nat)} (h : rows.map (·.1) = d.toLinks t) :
    ∀ x ∈ rowEntries t.eh rows, ∃ l ∈ d.toLinks t, x.task = ⟨t.eh, l.dst⟩ := by
  intro x hx
  obtain ⟨r, hr, e⟩ := List.mem_map.1 hx
  exact ⟨r.1, by rw [← h]; exact List.mem_map_of_mem hr, by rw [← e]⟩

theorem doneTask_toward {prio : Bool} {ev : LinkDef → ExprOut} {I : Inst} {o : Nat} {t : TaskRef} {I1 : Inst} {es : List TaskEntry}
    (h : I.doneTask prio ev o t = (I1, .ok es)) : ∀ x ∈ es, ∃ l ∈ I.defn.toLinks t, x.task = ⟨t.eh, l.dst⟩ := by
  unfold Inst.doneTask at h
  dsimp only at h
  split at h
  · cases h
  · rename_i rows hr
    cases h
    exact fun x hx => rowEntries_toward (GraphM.doneRows_rowsOK hr).1.links x ((sortEntries_perm _).mem_iff.1 hx)

theorem errorTask_toward {I : Inst} {o : Nat} {t : TaskRef} {I1 : Inst} {es : List TaskEntry}
    (h : I.errorTask o t = (I1, some es)) : ∀ x ∈ es, ∃ l ∈ I.defn.toLinks t, x.task = ⟨t.eh, l.dst⟩ := by
  unfold Inst.errorTask at h
  dsimp only at h
  split at h
  · cases h
  · rename_i rows hr
    cases h
    exact fun x hx => rowEntries_toward (GraphM.errorRows_ok hr).1.links x ((sortEntries_perm _).mem_iff.1 hx)

theorem skipTask_toward (I : Inst) (o : Nat) (t : TaskRef) :
    ∀ x ∈ (I.skipTask o t).2, ∃ l ∈ I.defn.toLinks t, x.task = ⟨t.eh, l.dst⟩ :=
  rowEntries_toward (GraphM.skipRows_ok (I.defn.toLinks t)).links

namespace Eng

variable {env : Env} {P : Nat → TaskRef → Prop} {e f g : Eng}

/-- `P` contains, with a task, what follows from it in the state `e`. -/
structure ClosedSet (P : Nat → TaskRef → Prop) (e : Eng) : Prop where
  link : ∀ (k : Nat) I t l, e.insts[k]? = some I → P k t → l ∈ I.defn.toLinks t → P k ⟨t.eh, l.dst⟩
  handler : ∀ (k : Nat) I t x, e.insts[k]? = some I → I.handling = false → P k t → x ∈ Inst.startEntries I.defn true → P k x.task
  same : ∀ (k : Nat) I t o ob, e.insts[k]? = some I → P k t → I.tasks.get? t.id = some o → I.objs[o]? = some ob → P k ob.task
  caller : ∀ (k : Nat) I hi ho, e.insts[k]? = some I → I.host = some (hi, ho) →
    ∃ ob, e.obj? hi ho = some ob ∧ ∀ t, P k t → P hi ob.task
  new : ∀ k, e.insts.length ≤ k → ∀ t, P k t

/-- What happens to the instances and to the work queue while only tasks in `P` are entered and executed. -/
structure Onwards (P : Nat → TaskRef → Prop) (e e' : Eng) : Prop where
  insts : ∀ (k : Nat) I, e.insts[k]? = some I → ∃ I', e'.insts[k]? = some I' ∧ Onward (P k) I I'
  fresh : ∀ (k : Nat) I', e'.insts[k]? = some I' → e.insts[k]? = none → ∃ hi ho ob, I'.host = some (hi, ho) ∧ e'.obj? hi ho = some ob ∧ P hi ob.task
  queue : ∀ w ∈ e'.queue, w ∈ e.queue ∨ ∃ ob, e'.obj? w.inst w.obj = some ob ∧ P w.inst ob.task

namespace Onwards

theorem obj (h : Onwards P e f) {i o : Nat} {ob : Obj} (ho : e.obj? i o = some ob) : ∃ ob', f.obj? i o = some ob' ∧ ob'.task = ob.task := by
  obtain ⟨I, hI, hb⟩ := obj?_some ho
  obtain ⟨J, hJ, g⟩ := h.insts i I hI
  obtain ⟨ob', h1, h2⟩ := g.keep o ob hb
  exact ⟨ob', by rw [obj?_eq hJ]; exact h1, h2⟩

theorem trans (h : Onwards P e f) (h' : Onwards P f g) : Onwards P e g := by
  refine ⟨fun k I hI => ?_, fun k I' h1 h2 => ?_, fun w hw => ?_⟩
  · obtain ⟨J, hJ, g1⟩ := h.insts k I hI
    obtain ⟨K, hK, g2⟩ := h'.insts k J hJ
    exact ⟨K, hK, g1.trans g2⟩
  · cases hf : f.insts[k]? with
    | none => exact h'.fresh k I' h1 hf
    | some J =>
      obtain ⟨hi, ho, ob, a1, a2, a3⟩ := h.fresh k J hf h2
      obtain ⟨K, hK, g2⟩ := h'.insts k J hf
      rw [h1] at hK; cases hK
      obtain ⟨ob', b1, b2⟩ := h'.obj a2
      exact ⟨hi, ho, ob', g2.host.trans a1, b1, b2 ▸ a3⟩
  · rcases h'.queue w hw with h1 | h1
    · rcases h.queue w h1 with h2 | ⟨ob, h2, h3⟩
      · exact Or.inl h2
      · obtain ⟨ob', b1, b2⟩ := h'.obj h2
        exact Or.inr ⟨ob', b1, b2 ▸ h3⟩
    · exact Or.inr h1

theorem of_insts (h : f.insts = e.insts) (hq : ∀ w ∈ f.queue, w ∈ e.queue) : Onwards P e f :=
  ⟨fun k I hI => ⟨I, by rw [h]; exact hI, .refl I⟩, fun k I' h1 h2 => (by rw [h, h2] at h1; cases h1), fun w hw => Or.inl (hq w hw)⟩

theorem refl (e : Eng) : Onwards P e e := of_insts rfl (fun _ h => h)

theorem modI (e : Eng) (k : Nat) (F : Inst → Inst) (h : ∀ I, e.insts[k]? = some I → Onward (P k) I (F I)) : Onwards P e (e.modI k F) := by
  refine ⟨fun j I hI => ?_, fun j I' h1 h2 => ?_, fun w hw => Or.inl hw⟩
  · rw [modI_getElem?, hI]
    split
    · rename_i hk; subst hk; exact ⟨F I, rfl, h I hI⟩
    · exact ⟨I, rfl, .refl I⟩
  · rw [modI_getElem?, h2] at h1
    split at h1 <;> cases h1

theorem schedule (e : Eng) {i o : Nat} {ob : Obj} (ho : e.obj? i o = some ob) (hp : P i ob.task) : Onwards P e (e.schedule i o) := by
  refine ⟨fun k I hI => ⟨I, hI, .refl I⟩, fun k I' h1 h2 => (by rw [show e.insts[k]? = some I' from h1] at h2; cases h2), fun w hw => ?_⟩
  rcases List.mem_append.1 (show w ∈ e.queue ++ [⟨e.wiCounter + 1, i, o⟩] from hw) with h | h
  · exact Or.inl h
  · cases List.mem_singleton.1 h
    exact Or.inr ⟨ob, ho, hp⟩

end Onwards

theorem ClosedSet.onwards (h : ClosedSet P e) (g : Onwards P e f) (hl : e.insts.length ≤ f.insts.length) : ClosedSet P f := by
  have back : ∀ (k : Nat) I', f.insts[k]? = some I' → (∃ I, e.insts[k]? = some I ∧ Onward (P k) I I') ∨ (e.insts[k]? = none ∧ ∀ t, P k t) := by
    intro k I' hI'
    cases hk : e.insts[k]? with
    | none => exact Or.inr ⟨rfl, h.new k (List.getElem?_eq_none_iff.1 hk)⟩
    | some I =>
      obtain ⟨J, hJ, o⟩ := g.insts k I hk
      rw [hI'] at hJ; cases hJ
      exact Or.inl ⟨I, rfl, o⟩
  refine ⟨fun k I' t l hI' hp hl => ?_, fun k I' t x hI' hh hp hx => ?_, fun k I' t o ob hI' hp hg ho => ?_, fun k I' hi ho hI' hh => ?_,
    fun k hk => h.new k (Nat.le_trans hl hk)⟩
  · rcases back k I' hI' with ⟨I, hI, o⟩ | ⟨_, h1⟩
    · exact h.link k I t l hI hp (o.defn ▸ hl)
    · exact h1 _
  · rcases back k I' hI' with ⟨I, hI, o⟩ | ⟨_, h1⟩
    · refine h.handler k I t x hI ?_ hp (o.defn ▸ hx)
      cases hc : I.handling with
      | false => rfl
      | true => rw [o.handling hc] at hh; cases hh
    · exact h1 _
  · rcases back k I' hI' with ⟨I, hI, ow⟩ | ⟨_, h1⟩
    · rcases ow.tasks _ _ hg with h2 | h2
      · rcases ow.objs o ob ho with ⟨b, h3, h4⟩ | h3
        · exact h4 ▸ h.same k I t o b hI hp h2 h3
        · exact h3
      · exact h2 ob ho
    · exact h1 _
  · rcases back k I' hI' with ⟨I, hI, o⟩ | ⟨hn, h1⟩
    · obtain ⟨ob, h2, h3⟩ := h.caller k I hi ho hI (o.host.symm.trans hh)
      obtain ⟨ob', h4, h5⟩ := g.obj h2
      exact ⟨ob', h4, fun t ht => h5 ▸ h3 t ht⟩
    · obtain ⟨hi', ho', ob, a1, a2, a3⟩ := g.fresh k I' hI' hn
      rw [hh] at a1; cases a1
      exact ⟨ob, a2, fun _ _ => a3⟩

/-- The entries that are still to be entered are in `P`. -/
def Entering (P : Nat → TaskRef → Prop) (e : Eng) : Prop := ∀ es x, .enter es ∈ e.stack → x ∈ es → P e.cur x.task

/-- A part of a step. -/
structure Part (P : Nat → TaskRef → Prop) (e e' : Eng) : Prop where
  on : Onwards P e e'
  len : e.insts.length ≤ e'.insts.length
  entering : Entering P e → Entering P e'

namespace Part

theorem trans (h : Part P e f) (h' : Part P f g) : Part P e g :=
  ⟨h.on.trans h'.on, Nat.le_trans h.len h'.len, fun x => h'.entering (h.entering x)⟩

theorem modI (e : Eng) (k : Nat) (F : Inst → Inst) (h : ∀ I, e.insts[k]? = some I → Onward (P k) I (F I)) : Part P e (e.modI k F) :=
  ⟨.modI e k F h, by simp, fun x => x⟩

theorem refl (e : Eng) : Part P e e := ⟨.refl e, Nat.le_refl _, (fun x => x)⟩

theorem schedule (e : Eng) {i o : Nat} {ob : Obj} (ho : e.obj? i o = some ob) (hp : P i ob.task) : Part P e (e.schedule i o) :=
  ⟨.schedule e ho hp, Nat.le_refl _, (fun x => x)⟩

/-- Only control state changes. -/
theorem ctl (e f : Eng) (h : f.insts = e.insts) (hq : f.queue = e.queue) (hs : Entering P e → Entering P f) : Part P e f :=
  ⟨.of_insts h (fun w hw => hq ▸ hw), by rw [h]; exact Nat.le_refl _, hs⟩

theorem flowStatus (e : Eng) (k : Nat) (s : FlowStatus) : Part P e (e.modI k (fun J => J.setFlowStatus s)) :=
  modI e k _ (fun _ _ => .flowStatus _ s)

theorem appendErrorData (e : Eng) (k : Nat) (t : TaskId) (err : Err) : Part P e (e.appendErrorData k t err) :=
  modI e k _ (fun _ _ => .quiet rfl rfl (fun x => x) rfl (fun _ _ h => h) [] rfl nofun)

/-- The task that waits for instance `k` is given data and scheduled. -/
theorem wake (hc : ClosedSet P e) {k : Nat} {I : Inst} (hI : e.insts[k]? = some I) {t : TaskRef} (hp : P k t) {hi ho : Nat}
    (hh : I.host = some (hi, ho)) (F : Obj → Obj) (hF : ∀ x, (F x).task = x.task) :
    Part P e ((e.modI hi (fun H => H.modO ho F)).schedule hi ho) := by
  obtain ⟨ob, h1, h2⟩ := hc.caller k I hi ho hI hh
  have hm : Part P e (e.modI hi (fun H => H.modO ho F)) := modI e hi _ (fun _ _ => .modO _ ho F hF)
  obtain ⟨ob', h3, h4⟩ := hm.on.obj h1
  exact hm.trans (schedule _ h3 (h4 ▸ h2 t hp))

theorem complete (hc : ClosedSet P e) {k : Nat} {t : TaskRef} (hp : P k t) : Part P e (e.complete k) := by
  have h1 : Part P e (e.modI k (fun J => J.setFlowStatus .completed)) := flowStatus e k _
  unfold Eng.complete
  split
  · exact refl e
  · rename_i I hI
    dsimp only
    split
    · exact h1
    · split
      · exact h1.trans (ctl _ _ rfl rfl (fun x => x))
      · rename_i hi ho hh
        refine (h1.trans (wake (hc.onwards h1.on h1.len) (modI_self hI _) hp (I := I.setFlowStatus .completed) hh
          (fun x => { x with outputs := I.returnData, returnError := none }) (fun _ => rfl))).trans (ctl _ _ rfl rfl (fun x => x))

theorem failHost (hc : ClosedSet P e) {k : Nat} {t : TaskRef} (hp : P k t) (err : Err) : Part P e (e.failHost k err) := by
  unfold Eng.failHost
  split
  · exact refl e
  · rename_i I hI
    split
    · exact refl e
    · rename_i hi ho hh
      exact wake hc hI hp hh (fun x => { x with returnError := some err }) (fun _ => rfl)

theorem globalError (hc : ClosedSet P e) {k : Nat} {t : TaskRef} (hp : P k t) (err : Err) : Part P e (e.globalError k err) := by
  unfold Eng.globalError
  split
  · exact refl e
  · rename_i I hI
    split
    · exact flowStatus e k _
    · rename_i hh
      have h1 : Part P e (e.modI k (fun J => { J with handling := true })) :=
        modI e k _ (fun _ _ => .quiet rfl rfl (fun _ => rfl) rfl (fun _ _ h => h) [] rfl nofun)
      dsimp only
      split
      · have h2 := (h1.trans (modI _ 0 (fun J => J.clearTasks) (fun _ _ => .clear _))).trans
          (modI _ k (fun J => { J with trace := .ehStart :: J.trace }) (fun _ _ => .event _ .ehStart rfl))
        refine h2.trans (ctl _ _ rfl rfl (fun _ es x hs hx => ?_))
        cases List.mem_singleton.1 hs
        exact hc.handler k I t x hI (by simpa using hh) hp hx
      · have h2 := h1.trans (flowStatus _ k .failed)
        split
        · exact h2.trans (modI _ 0 (fun J => { J with returnError := some err }) (fun _ _ => .quiet rfl rfl (fun x => x) rfl (fun _ _ h => h) [] rfl nofun))
        · exact h2.trans (failHost (hc.onwards h2.on h2.len) hp err)

theorem next {h : Part P e f} (hc : ClosedSet P e) : ClosedSet P f := hc.onwards h.on h.len

theorem taskError (hc : ClosedSet P e) {i o : Nat} {t : TaskRef} (hp : P i t) (err : Err) : Part P e (e.taskError i o t err) := by
  unfold Eng.taskError
  split
  · exact refl e
  · rename_i I hI
    have ho := Onward.errorTask (A := P i) I o t
    split
    · rename_i I1 es h1
      rw [h1] at ho
      have h2 : Part P e (e.modI i (fun _ => I1.setValue ("_E." ++ t.id) (errorObj t.id err))) :=
        modI e i _ (fun J hJ => by
          rw [hI] at hJ; cases hJ
          exact ho.trans (.quiet rfl rfl (fun x => x) rfl (fun _ _ h => h) [] rfl nofun))
      refine h2.trans (ctl _ _ rfl rfl (fun _ es' x hs hx => ?_))
      rcases List.mem_cons.1 hs with h | h
      · cases h
        obtain ⟨l, hl, hx'⟩ := errorTask_toward h1 x hx
        rw [hx']; exact hc.link i I t l hI hp hl
      · cases List.mem_singleton.1 h
    · rename_i I1 h1
      rw [h1] at ho
      have h2 : Part P e (e.modI i (fun _ => I1)) := modI e i _ (fun J hJ => by rw [hI] at hJ; cases hJ; exact ho)
      split
      · have h3 := h2.trans (flowStatus _ i .failed)
        split
        · exact h3.trans (appendErrorData _ _ _ _)
        · exact h3.trans (failHost (hc.onwards h3.on h3.len) hp err)
      · have h3 := h2.trans (appendErrorData _ i t.id err)
        exact h3.trans (globalError (hc.onwards h3.on h3.len) hp err)

/-- The successors in `es` are entered, then the frames below. -/
theorem finishTask (hc : ClosedSet P e) {i : Nat} {t : TaskRef} (hp : P i t) (n : Bool) {es : List TaskEntry} {rest : List Frame}
    (hes : ∀ x ∈ es, P i x.task) (hrest : ∀ es' x, .enter es' ∈ rest → x ∈ es' → P i x.task)
    (hno : e.insts[i]? ≠ none) : Part P e (e.finishTask i t n es rest) := by
  unfold Eng.finishTask
  split
  · rename_i h; exact absurd h hno
  · split
    · refine (complete hc hp).trans (ctl _ _ rfl rfl (fun _ es' x hs hx => ?_))
      rcases List.mem_cons.1 hs with h | h
      · cases h
      · exact hrest es' x h hx
    · refine ctl _ _ rfl rfl (fun _ es' x hs hx => ?_)
      rcases List.mem_cons.1 hs with h | h
      · cases h; exact hes x hx
      · rcases List.mem_cons.1 h with h | h
        · cases h
        · exact hrest es' x h hx

theorem taskDone (hc : ClosedSet P e) {i o : Nat} {t : TaskRef} (hp : P i t) : Part P e (e.taskDone env i o t) := by
  unfold Eng.taskDone
  split
  · exact refl e
  · rename_i I hI
    have ho := Onward.doneTask (A := P i) env.prio (env.link e i) I o t
    split
    · rename_i I1 m h1
      rw [h1] at ho
      have h2 := (modI e i (fun _ => I1) (fun J hJ => by rw [hI] at hJ; cases hJ; exact ho) : Part P e _)
      have h3 := h2.trans (appendErrorData _ i t.id (.plain ("error handling task done transition for task [" ++ e.taskName i t ++ "] in flow [" ++
        e.topName ++ "] : " ++ m)))
      exact h3.trans (globalError (hc.onwards h3.on h3.len) hp _)
    · rename_i I1 es h1
      rw [h1] at ho
      have h2 := (modI e i (fun _ => I1) (fun J hJ => by rw [hI] at hJ; cases hJ; exact ho) : Part P e _)
      refine h2.trans (finishTask (hc.onwards h2.on h2.len) hp _ (fun x hx => ?_) nofun (by rw [modI_self hI]; nofun))
      obtain ⟨l, hl, hx'⟩ := doneTask_toward h1 x hx
      rw [hx']; exact hc.link i I t l hI hp hl

theorem taskSkipped (hc : ClosedSet P e) {i o : Nat} (hp : ∀ ob, e.obj? i o = some ob → P i ob.task) {rest : List Frame}
    (hrest : ∀ es' x, .enter es' ∈ rest → x ∈ es' → P i x.task) (hcur : e.cur = i) : Part P e (e.taskSkipped i o rest) := by
  unfold Eng.taskSkipped
  split
  · exact refl e
  · rename_i I hI
    split
    · exact ctl _ _ rfl rfl (fun _ es x hs hx => by rw [show ({ e with stack := rest } : Eng).cur = i from hcur]; exact hrest es x hs hx)
    · rename_i ob hb
      have hq := hp ob (by rw [obj?_eq hI]; exact hb)
      have h2 := (modI e i (fun _ => (I.skipTask o ob.task).1) (fun J hJ => by rw [hI] at hJ; cases hJ; exact .skipTask I o ob.task) : Part P e _)
      refine h2.trans (finishTask (hc.onwards h2.on h2.len) hq _ (fun x hx => ?_) hrest (by rw [modI_self hI]; nofun))
      obtain ⟨l, hl, hx'⟩ := skipTask_toward I o ob.task x hx
      rw [hx']; exact hc.link i I _ l hI hq hl

theorem enterEntry (hc : ClosedSet P e) {x : TaskEntry} {xs : List TaskEntry} {rest : List Frame} (hs : e.stack = .enter (x :: xs) :: rest)
    (hen : Entering P e) : Part P e (e.enterEntry env x xs rest) := by
  have hx : P e.cur x.task := hen (x :: xs) x (by rw [hs]; exact List.mem_cons_self ..) (List.mem_cons_self ..)
  have hrest : ∀ es' y, .enter es' ∈ rest → y ∈ es' → P e.cur y.task := fun es' y h hy =>
    hen es' y (by rw [hs]; exact List.mem_cons_of_mem _ h) hy
  have hnext : ∀ es' y, .enter es' ∈ .enter xs :: rest → y ∈ es' → P e.cur y.task := fun es' y h hy => by
    rcases List.mem_cons.1 h with h | h
    · cases h; exact hen (x :: xs) y (by rw [hs]; exact List.mem_cons_self ..) (List.mem_cons_of_mem _ hy)
    · exact hrest es' y h hy
  unfold Eng.enterEntry
  split
  · exact ctl _ _ rfl rfl (fun _ => hrest)
  · rename_i I hI
    obtain ⟨o1, o2, o3⟩ := Onward.enterTask (A := P e.cur) I hx (fun o ob hg ho => hc.same e.cur I x.task o ob hI hx hg ho)
    have hm : Part P e (e.modI e.cur (fun _ => (I.enterTask x.task).1)) :=
      modI e _ _ (fun J hJ => by rw [hI] at hJ; cases hJ; exact o1)
    have hob : ∀ ob, (e.modI e.cur (fun _ => (I.enterTask x.task).1)).obj? e.cur (I.enterTask x.task).2.1 = some ob → P e.cur ob.task := by
      intro ob h
      rw [obj?_eq (modI_self hI _)] at h
      exact o2 ob h
    dsimp only
    split
    · exact hm.trans (ctl _ _ rfl rfl (fun _ => hnext))
    · rename_i hev
      split
      · obtain ⟨ob, h1⟩ := o3 hev
        have h2 : (e.modI e.cur (fun _ => (I.enterTask x.task).1)).obj? e.cur (I.enterTask x.task).2.1 = some ob := by
          rw [obj?_eq (modI_self hI _)]; exact h1
        exact (hm.trans (schedule _ h2 (hob ob h2))).trans (ctl _ _ rfl rfl (fun _ => hnext))
      · exact hm.trans (ctl _ _ rfl rfl (fun _ => hrest))
    · exact hm.trans (taskSkipped (hc.onwards hm.on hm.len) hob hnext rfl)

/-- Starting an instance in which everything is allowed. -/
theorem enterStart {k : Nat} (hk : ∀ t, P k t) (es : List TaskEntry) (e : Eng) : Part P e (enterStart env e k es) := by
  induction es generalizing e with
  | nil => exact refl e
  | cons x xs ih =>
    simp only [Eng.enterStart]
    split
    · exact refl e
    · rename_i I hI
      obtain ⟨o1, o2, o3⟩ := Onward.enterTask (A := P k) I (hk x.task) (fun _ _ _ _ => hk _)
      have hm : Part P e (e.modI k (fun _ => (I.enterTask x.task).1)) :=
        modI e _ _ (fun J hJ => by rw [hI] at hJ; cases hJ; exact o1)
      split
      · rename_i hev
        split
        · obtain ⟨ob, h1⟩ := o3 hev
          exact (hm.trans (schedule _ (by rw [obj?_eq (modI_self hI _)]; exact h1) (hk ob.task))).trans (ih _)
        · exact hm
      · exact hm.trans (ih _)

theorem startInstance {k : Nat} (hk : ∀ t, P k t) (e : Eng) (ins : AMap String Val) : Part P e (startInstance env e k ins) := by
  unfold Eng.startInstance
  split
  · exact refl e
  · rename_i I hI
    refine (modI e k _ (fun J hJ => ?_)).trans (enterStart hk _ _)
    rw [hI] at hJ; cases hJ
    exact .quiet rfl rfl (fun x => x) rfl (fun _ _ h => h) [.flowStatus .active] rfl (fun ev h => by cases List.mem_singleton.1 h; rfl)

theorem newEmbedded (e : Eng) {i o : Nat} {ob : Obj} (ho : e.obj? i o = some ob) (hp : P i ob.task) (uri : String) (d : Def) :
    Part P e (e.newEmbedded i o uri d) := by
  refine ⟨⟨fun j I hI => ⟨I, ?_, .refl I⟩, fun j I' h1 h2 => ?_, fun w hw => Or.inl hw⟩, by simp, fun x => x⟩
  · rw [newEmbedded_getElem? _ _ _ _ _ (List.getElem?_eq_some_iff.1 hI).1]; exact hI
  · have hlen := List.getElem?_eq_none_iff.1 h2
    refine ⟨i, o, ob, ?_, ?_, hp⟩
    · unfold Eng.newEmbedded at h1
      dsimp only at h1
      rw [List.getElem?_append_right hlen] at h1
      cases hq : j - e.insts.length with
      | zero => rw [hq] at h1; cases h1; rfl
      | succ n => rw [hq] at h1; cases h1
    · obtain ⟨I, hI, hb⟩ := obj?_some ho
      rw [obj?_eq (newEmbedded_getElem? e i o uri d (List.getElem?_eq_some_iff.1 hI).1 ▸ hI)]
      exact hb

theorem evals {i o : Nat} {s : Option String} (h : Evals env i o s e f) (hc : ClosedSet P e) {ob : Obj} (ho : e.obj? i o = some ob)
    (hp : P i ob.task) : Part P e f := by
  induction h generalizing ob with
  | refl e => exact refl e
  | inst e F hF =>
    refine modI e i F (fun I hI => .same (hF I hI) (fun b hb => ?_))
    rw [obj?_eq hI, hb] at ho; cases ho; exact hp
  | reply e r => exact ctl _ _ rfl rfl (fun x => x)
  | sub e uri d inputs _ _ _ => exact (newEmbedded e ho hp uri d).trans (startInstance (hc.new _ (Nat.le_refl _)) _ _)
  | trans _ _ h1 h2 =>
    have p1 := h1 hc ho hp
    obtain ⟨b, h3, h4⟩ := p1.on.obj ho
    exact p1.trans (h2 (hc.onwards p1.on p1.len) h3 (h4 ▸ hp))

theorem setStatus (e : Eng) (i o : Nat) (s : TaskStatus) : Part P e (e.setStatus i o s) := modI e i _ (fun _ _ => .setTaskStatus _ o s)

theorem handleResult (hc : ClosedSet P e) {i o : Nat} {ob : Obj} (ho : e.obj? i o = some ob) (hp : P i ob.task) {t : TaskRef} (ht : P i t)
    (name : String) (r : EvalOut) : Part P e (e.handleResult env i o t name r) := by
  unfold Eng.handleResult
  cases r with
  | err err => exact taskError hc ht err
  | res r =>
    cases r with
    | done => exact taskDone hc ht
    | skip => exact taskDone hc ht
    | wait => exact setStatus e i o _
    | fail => exact setStatus e i o _
    | again => exact schedule e ho hp
  | panic m =>
    dsimp only
    split
    · exact refl e
    · split
      · exact refl e
      · have h3 : Part P e (e.appendErrorData i t.id (.eval name "unhandled" ("unhandled Error executing task '" ++ t.id ++ "' : " ++ m))) :=
          appendErrorData _ _ _ _
        exact h3.trans (globalError (hc.onwards h3.on h3.len) ht _)

theorem exec (hc : ClosedSet P e) {i o : Nat} {ob : Obj} (ho : e.obj? i o = some ob) (hp : P i ob.task) : Part P e (e.exec env i o) := by
  have after : ∀ {s : Option String} {e' e1 : Eng}, Evals env i o s e e' → (e1 = e' ∨ ∃ st, e1 = e'.setStatus i o st) → ∀ name r,
      Part P e (e1.handleResult env i o ob.task name r) := by
    intro s e' e1 hv h1 name r
    have p1 := evals hv hc ho hp
    have p2 : Part P e e1 := by
      rcases h1 with h1 | ⟨st, h1⟩
      · exact h1 ▸ p1
      · exact h1 ▸ p1.trans (setStatus _ _ _ st)
    obtain ⟨b, h3, h4⟩ := p2.on.obj ho
    exact p2.trans (handleResult (hc.onwards p2.on p2.len) h3 (h4 ▸ hp) hp name r)
  unfold Eng.exec
  rw [ho]
  dsimp only
  split
  · exact refl e
  · rename_i td htd
    split
    · obtain ⟨e', h1, h2⟩ := postKind_spec (env := env) ho td
      refine after h1 ?_ _ _
      generalize (Eng.postKind env e i o td).2 = r at h2
      unfold PostEff at h2
      split at h2 <;> first | exact h2.elim | (rcases h2 with h2 | h2 | h2 <;> first | exact Or.inl h2 | exact Or.inr ⟨_, h2⟩) | (rcases h2 with h2 | h2 <;> first | exact Or.inl h2 | exact Or.inr ⟨_, h2⟩) | exact Or.inl h2 | exact Or.inr ⟨_, h2⟩
    · exact refl e
    · exact refl e
    · obtain ⟨e', h1, h2⟩ := evalKind_spec (env := env) ho td
      refine after h1 ?_ _ _
      generalize (Eng.evalKind env e i o td).2 = r at h2
      unfold EvalEff at h2
      split at h2 <;> first | exact h2.elim | (rcases h2 with h2 | h2 <;> first | exact Or.inl h2 | exact Or.inr ⟨_, h2⟩) | exact Or.inl h2 | exact Or.inr ⟨_, h2⟩

end Part

/-- Everything that is pending is in `P`, and so is everything that follows from it. -/
structure Within (P : Nat → TaskRef → Prop) (e : Eng) : Prop where
  closed : ClosedSet P e
  items : ∀ w ∈ e.queue, ∃ ob, e.obj? w.inst w.obj = some ob ∧ P w.inst ob.task
  entering : Entering P e

theorem Part.within (h : Part P e f) (hw : Within P e) : Within P f := by
  refine ⟨hw.closed.onwards h.on h.len, fun w hq => ?_, h.entering hw.entering⟩
  rcases h.on.queue w hq with h1 | h1
  · obtain ⟨ob, h2, h3⟩ := hw.items w h1
    obtain ⟨b, h4, h5⟩ := h.on.obj h2
    exact ⟨b, h4, h5 ▸ h3⟩
  · exact h1

theorem Within.step (hw : Within P e) : Part P e (e.step env) := by
  unfold Eng.step
  split
  · rename_i hs
    unfold Eng.doStep
    split
    · exact .refl e
    · dsimp only
      split
      · split
        · exact .ctl _ _ rfl rfl (fun x => x)
        · rename_i w hq
          obtain ⟨ob, h1, h2⟩ := hw.items w (List.mem_of_getElem? hq)
          have p : Part P e { e with stepID := e.stepID + 1, queue := e.queue.eraseIdx (env.pick e % e.queue.length), qlog := .removed w :: e.qlog } :=
            ⟨.of_insts rfl (fun w hw => List.mem_of_mem_eraseIdx hw), Nat.le_refl _, (fun x => x)⟩
          exact p.trans (.exec (hw.closed.onwards p.on p.len) (by exact h1) h2)
      · exact .ctl _ _ rfl rfl (fun x => x)
  · rename_i rest hs
    exact .ctl _ _ rfl rfl (fun h es x h1 hx => h es x (by rw [hs]; exact List.mem_cons_of_mem _ h1) hx)
  · rename_i x xs rest hs
    exact .enterEntry hw.closed hs hw.entering
  · rename_i t rest hs
    refine (Part.modI e e.cur (fun I => I.release t) (fun _ _ => .release _ t)).trans (.ctl _ _ rfl rfl (fun h es x h1 hx => ?_))
    exact h es x (by show Frame.enter es ∈ e.stack; rw [hs]; exact List.mem_cons_of_mem _ h1) hx

theorem Within.run (hw : Within P e) (n : Nat) : Part P e (e.run env n) := by
  induction n with
  | zero => exact .refl e
  | succ n ih => exact ih.trans (ih.within hw).step

/-- The tasks ahead of a reachable state. -/
theorem within_ahead (hr : Reachable env e) : Within (Ahead e) e := by
  have ok := engOK_reachable hr
  refine ⟨⟨fun k I t l hI hp hl => ?_, fun k I t x hI hh hp hx => ?_, fun k I t o ob hI hp hg ho => .same hp hI hg ho, fun k I hi ho hI hh => ?_,
    fun k hk t => .new hk t⟩, fun w hw => ?_, fun es x hs hx => .entry hs hx⟩
  · obtain ⟨h1, h2⟩ := List.mem_filter.1 hl
    exact .link hp hI h1 (by simpa using h2)
  · obtain ⟨u, hu, rfl⟩ := List.mem_map.1 hx
    obtain ⟨h1, h2⟩ := List.mem_filter.1 hu
    refine .handler hp hI hh h1 (fun l hl hd => ?_)
    have h3 : ((I.defn.graph true).links.filter (fun l => l.dst = u.id)).length = 0 := by simpa [Def.fromLinks, Graph.fromLinks] using h2
    have h4 := List.length_eq_zero_iff.1 h3
    have : l ∈ ([] : List LinkDef) := h4 ▸ List.mem_filter.2 ⟨hl, by simpa using hd⟩
    cases this
  · by_cases hk : k = 0
    · subst hk; rw [ok.host0 I hI] at hh; cases hh
    · obtain ⟨a, b, h1, _, J, ob, h2, h3, _⟩ := ok.hosts k I hI hk
      rw [hh] at h1; cases h1
      have h4 : e.obj? hi ho = some ob := by rw [obj?_eq h2]; exact h3
      exact ⟨ob, h4, fun t ht => .caller ht hI hh h4⟩
  · obtain ⟨J, ob, h2, h3, _⟩ := ok.queue w hw
    have h4 : e.obj? w.inst w.obj = some ob := by rw [obj?_eq h2]; exact h3
    exact ⟨ob, h4, .item hw h4⟩

end Eng

end Flow
