import Verif.Proofs.Base

/-
The invariants of a running flow, preserved by every step whatever the environment does.
-/

namespace Flow
open Spec

namespace Eng

/-- The object exists and its task has become ready. -/
def Readied (e : Eng) (i o : Nat) : Prop :=
  ∃ (I : Inst) (ob : Obj), e.insts[i]? = some I ∧ I.objs[o]? = some ob ∧ .taskStatus o ob.task .ready ∈ I.trace

structure EngOK (e : Eng) : Prop where
  ok : ∀ (i : Nat) (I : Inst), e.insts[i]? = some I → InstOK I
  sid : ∀ (i : Nat) (I : Inst), e.insts[i]? = some I → I.subflowId = i
  ctr : e.subflowCtr + 1 = e.insts.length
  host0 : ∀ I : Inst, e.insts[0]? = some I → I.host = none
  hosts : ∀ (i : Nat) (I : Inst), e.insts[i]? = some I → i ≠ 0 → ∃ hi ho, I.host = some (hi, ho) ∧ hi < i ∧ Readied e hi ho
  queue : ∀ w ∈ e.queue, Readied e w.inst w.obj
  qlog : QueueOK e.qlog
  qctr : ∀ w, .added w ∈ e.qlog → 0 < w.id ∧ w.id ≤ e.wiCounter
  qmem : ∀ w, w ∈ e.queue ↔ .added w ∈ e.qlog ∧ .removed w ∉ e.qlog
  qnodup : (e.queue.map (·.id)).Nodup
  sub : ∀ k j, e.subflows.get? k = some j → k = j ∧ 0 < j ∧ j < e.insts.length

/-- Every instance evolves properly. -/
def EExt (e e' : Eng) : Prop := ∀ (i : Nat) (I : Inst), e.insts[i]? = some I → ∃ I', e'.insts[i]? = some I' ∧ Ext I I'

theorem EExt.refl (e : Eng) : EExt e e := fun _ I h => ⟨I, h, Ext.refl _⟩

theorem EExt.trans {e f g : Eng} (h : EExt e f) (h' : EExt f g) : EExt e g := by
  intro i I hI
  obtain ⟨J, hJ, h1⟩ := h i I hI
  obtain ⟨K, hK, h2⟩ := h' i J hJ
  exact ⟨K, hK, h1.trans h2⟩

theorem Readied.ext {e e' : Eng} (h : EExt e e') {i o : Nat} (hr : Readied e i o) : Readied e' i o := by
  obtain ⟨I, ob, h1, h2, h3⟩ := hr
  obtain ⟨I', h4, h5⟩ := h i I h1
  obtain ⟨ob', h6, h7⟩ := h5.objs o ob h2
  exact ⟨I', ob', h4, h6, by rw [h7]; exact h5.mem h3⟩

/-- `e` may become `e'`. -/
def Good (e e' : Eng) : Prop := EngOK e → EngOK e' ∧ EExt e e'

theorem Good.refl (e : Eng) : Good e e := fun h => ⟨h, .refl e⟩

theorem Good.trans {e f g : Eng} (h : Good e f) (h' : Good f g) : Good e g := by
  intro ok
  obtain ⟨a, b⟩ := h ok
  obtain ⟨c, d⟩ := h' a
  exact ⟨c, b.trans d⟩

/-- The second step may use that the invariant holds and that the first step was proper. -/
theorem Good.bind {e f g : Eng} (h : Good e f) (h' : EngOK e → EngOK f → EExt e f → Good f g) : Good e g := by
  intro ok
  obtain ⟨a, b⟩ := h ok
  obtain ⟨c, d⟩ := h' ok a b a
  exact ⟨c, b.trans d⟩

/-- Only control state changes. -/
theorem Good.ctl {e e' : Eng} (hi : e'.insts = e.insts) (hq : e'.queue = e.queue) (hl : e'.qlog = e.qlog)
    (hw : e'.wiCounter = e.wiCounter) (hs : e'.subflowCtr = e.subflowCtr)
    (hsub : ∀ k j, e'.subflows.get? k = some j → e.subflows.get? k = some j) : Good e e' := by
  intro ok
  have hext : EExt e e' := fun i I h => ⟨I, by rw [hi]; exact h, Ext.refl _⟩
  refine ⟨⟨?_, ?_, ?_, ?_, ?_, ?_, ?_, ?_, ?_, ?_, ?_⟩, hext⟩
  · rw [hi]; exact ok.ok
  · rw [hi]; exact ok.sid
  · rw [hi, hs]; exact ok.ctr
  · rw [hi]; exact ok.host0
  · rw [hi]
    intro i I h1 h2
    obtain ⟨a, b, h3, h4, h5⟩ := ok.hosts i I h1 h2
    exact ⟨a, b, h3, h4, h5.ext hext⟩
  · rw [hq]; exact fun w hw => (ok.queue w hw).ext hext
  · rw [hl]; exact ok.qlog
  · rw [hl, hw]; exact ok.qctr
  · rw [hl, hq]; exact ok.qmem
  · rw [hq]; exact ok.qnodup
  · intro k j h
    rw [hi]
    exact ok.sub k j (hsub k j h)

theorem Good.modI {e : Eng} {i : Nat} {f : Inst → Inst} (h : EngOK e → ∀ I : Inst, e.insts[i]? = some I → Ext I (f I)) :
    Good e (e.modI i f) := by
  intro ok
  have hf := h ok
  have hext : EExt e (e.modI i f) := by
    intro j I hI
    rw [modI_getElem?]
    split
    · rename_i hij; subst hij; exact ⟨f I, by simp [hI], hf I hI⟩
    · exact ⟨I, hI, Ext.refl _⟩
  have hback : ∀ (j : Nat) (I' : Inst), (e.modI i f).insts[j]? = some I' → ∃ I, e.insts[j]? = some I ∧ Ext I I' := by
    intro j I' hI'
    rw [modI_getElem?] at hI'
    split at hI'
    · rename_i hij; subst hij
      cases hI : e.insts[i]? with
      | none => simp [hI] at hI'
      | some I => simp [hI] at hI'; subst hI'; exact ⟨I, rfl, hf I hI⟩
    · exact ⟨I', hI', Ext.refl _⟩
  refine ⟨⟨?_, ?_, ?_, ?_, ?_, ?_, ok.qlog, ok.qctr, ok.qmem, ok.qnodup, ?_⟩, hext⟩
  · intro j I' hI'
    obtain ⟨I, hI, hx⟩ := hback j I' hI'
    exact hx.ok (ok.ok j I hI)
  · intro j I' hI'
    obtain ⟨I, hI, hx⟩ := hback j I' hI'
    rw [hx.subflowId]; exact ok.sid j I hI
  · rw [modI_length]; exact ok.ctr
  · intro I' hI'
    obtain ⟨I, hI, hx⟩ := hback 0 I' hI'
    rw [hx.host]; exact ok.host0 I hI
  · intro j I' hI' hj
    obtain ⟨I, hI, hx⟩ := hback j I' hI'
    obtain ⟨a, b, h3, h4, h5⟩ := ok.hosts j I hI hj
    exact ⟨a, b, by rw [hx.host]; exact h3, h4, h5.ext hext⟩
  · exact fun w hw => (ok.queue w hw).ext hext
  · intro k j h
    simpa using ok.sub k j h

theorem Good.modI' {e : Eng} {i : Nat} {f : Inst → Inst} (h : ∀ I, Ext I (f I)) : Good e (e.modI i f) :=
  Good.modI fun _ I _ => h I

theorem Good.schedule {e : Eng} {i o : Nat} (h : EngOK e → Readied e i o) : Good e (e.schedule i o) := by
  intro ok
  have hr := h ok
  have hext : EExt e (e.schedule i o) := fun i I h => ⟨I, h, Ext.refl _⟩
  have hnew : .added (⟨e.wiCounter + 1, i, o⟩ : WorkItem) ∉ e.qlog := by
    intro hm; have := ok.qctr _ hm; simp at this; omega
  have hnewr : .removed (⟨e.wiCounter + 1, i, o⟩ : WorkItem) ∉ e.qlog := by
    intro hm
    have : ∀ l : List QEv, QueueOK l → .removed (⟨e.wiCounter + 1, i, o⟩ : WorkItem) ∈ l →
        .added (⟨e.wiCounter + 1, i, o⟩ : WorkItem) ∈ l := by
      intro l hl hm
      induction l with
      | nil => simp at hm
      | cons x xs ih =>
        cases x with
        | added v =>
          rcases List.mem_cons.1 hm with h1 | h1
          · cases h1
          · exact List.mem_cons_of_mem _ (ih hl.2 h1)
        | removed v =>
          rcases List.mem_cons.1 hm with h1 | h1
          · cases h1; exact List.mem_cons_of_mem _ hl.1
          · exact List.mem_cons_of_mem _ (ih hl.2.2 h1)
    exact hnew (this _ ok.qlog hm)
  refine ⟨⟨ok.ok, ok.sid, ok.ctr, ok.host0, ?_, ?_, ?_, ?_, ?_, ?_, ok.sub⟩, hext⟩
  · intro j I hI hj
    obtain ⟨a, b, h3, h4, h5⟩ := ok.hosts j I hI hj
    exact ⟨a, b, h3, h4, h5.ext hext⟩
  · intro w hw
    simp only [Eng.schedule, List.mem_append, List.mem_singleton] at hw
    rcases hw with hw | hw
    · exact (ok.queue w hw).ext hext
    · subst hw; exact hr.ext hext
  · refine ⟨fun v hv => ?_, ok.qlog⟩
    have := ok.qctr v hv
    simp; omega
  · intro w hw
    simp only [Eng.schedule, List.mem_cons] at hw ⊢
    rcases hw with hw | hw
    · cases hw; simp
    · have := ok.qctr w hw; omega
  · intro w
    simp only [Eng.schedule, List.mem_append, List.mem_cons, List.not_mem_nil, or_false, ok.qmem w]
    constructor
    · rintro (⟨h1, h2⟩ | h1)
      · exact ⟨Or.inr h1, by simp [h2]⟩
      · subst h1; exact ⟨Or.inl rfl, by simp [hnewr]⟩
    · rintro ⟨h1 | h1, h2⟩
      · cases h1; exact Or.inr rfl
      · exact Or.inl ⟨h1, by simpa using h2⟩
  · simp only [Eng.schedule, List.map_append, List.map_cons, List.map_nil]
    rw [List.nodup_append]
    refine ⟨ok.qnodup, by simp, ?_⟩
    intro a ha b hb
    simp at hb; subst hb
    obtain ⟨w, hw, rfl⟩ := List.mem_map.1 ha
    have := ok.qctr w ((ok.qmem w).1 hw).1
    omega

theorem Good.pop {e : Eng} {k : Nat} {w : WorkItem} (h : e.queue[k]? = some w) :
    Good e { e with queue := e.queue.eraseIdx k, qlog := .removed w :: e.qlog } := by
  intro ok
  have hext : EExt e { e with queue := e.queue.eraseIdx k, qlog := .removed w :: e.qlog } := fun i I h => ⟨I, h, Ext.refl _⟩
  have hwm : w ∈ e.queue := List.mem_of_getElem? h
  have hnd : e.queue.Nodup := by
    refine (List.pairwise_map.1 ok.qnodup).imp ?_
    intro a b h he
    exact h (by rw [he])
  have hmem : ∀ v, v ∈ e.queue.eraseIdx k ↔ v ∈ e.queue ∧ v ≠ w := by
    intro v
    rw [List.mem_eraseIdx_iff_getElem?]
    constructor
    · rintro ⟨j, hj, hv⟩
      refine ⟨List.mem_of_getElem? hv, ?_⟩
      intro hvw
      subst hvw
      have h1 := (List.getElem?_eq_some_iff.1 hv)
      have h2 := (List.getElem?_eq_some_iff.1 h)
      obtain ⟨a1, b1⟩ := h1
      obtain ⟨a2, b2⟩ := h2
      exact hj ((List.getElem_inj hnd).1 (b1.trans b2.symm))
    · rintro ⟨hv, hne⟩
      obtain ⟨j, hj⟩ := List.mem_iff_getElem?.1 hv
      refine ⟨j, ?_, hj⟩
      intro hjk; subst hjk
      rw [h] at hj; cases hj; exact hne rfl
  refine ⟨⟨ok.ok, ok.sid, ok.ctr, ok.host0, ok.hosts, ?_, ?_, ?_, ?_, ?_, ok.sub⟩, hext⟩
  · intro v hv
    exact ok.queue v (List.mem_of_mem_eraseIdx hv)
  · have := (ok.qmem w).1 hwm
    exact ⟨this.1, this.2, ok.qlog⟩
  · intro v hv
    simp only [List.mem_cons] at hv
    rcases hv with hv | hv
    · cases hv
    · exact ok.qctr v hv
  · intro v
    simp only [hmem, ok.qmem v, List.mem_cons, QEv.removed.injEq, reduceCtorEq, false_or]
    constructor
    · rintro ⟨⟨h1, h2⟩, h3⟩
      exact ⟨h1, by rintro (h4 | h4); exact h3 h4; exact h2 h4⟩
    · rintro ⟨h1, h2⟩
      exact ⟨⟨h1, fun h3 => h2 (Or.inr h3)⟩, fun h3 => h2 (Or.inl h3)⟩
  · exact List.Nodup.sublist (List.Sublist.map _ (List.eraseIdx_sublist ..)) ok.qnodup

/-! ### Starting -/

variable {env : Env}

theorem Good.enterStart (k : Nat) (es : List TaskEntry) (e : Eng) : Good e (enterStart env e k es) := by
  induction es generalizing e with
  | nil => exact .refl _
  | cons x xs ih =>
    simp only [Eng.enterStart]
    split
    · exact .refl _
    · rename_i I hI
      obtain ⟨h1, h2, _⟩ := enterTask_ext I x.task
      have hm : Good e (e.modI k (fun _ => (I.enterTask x.task).1)) :=
        Good.modI fun _ J hJ => by rw [hI] at hJ; cases hJ; exact h1
      split
      · rename_i hev
        split
        · refine (hm.bind fun ok0 _ _ => ?_).trans (ih _)
          refine Good.schedule fun _ => ?_
          obtain ⟨ob, h3, h4⟩ := h2 (ok0.ok k I hI) hev
          exact ⟨_, ob, modI_self hI _, h3, h4⟩
        · exact hm
      · exact hm.trans (ih _)

theorem Good.startInstance (k : Nat) (ins : AMap String Val) (e : Eng) : Good e (startInstance env e k ins) := by
  unfold Eng.startInstance
  split
  · exact .refl _
  · rename_i I hI
    refine Good.trans (Good.modI fun _ J hJ => ?_) (Good.enterStart _ _ _)
    rw [hI] at hJ; cases hJ
    exact (Ext.attrs (I := I) _).trans (Ext.setFlowStatus .active (by decide))

theorem instOK_new (d : Def) (uri : String) (k : Nat) (h : Option (Nat × Nat)) :
    InstOK { defn := d, uri := uri, subflowId := k, host := h } := by
  refine ⟨trivial, fun l => rfl, by simp, ?_, fun _ => rfl, fun _ => rfl, fun o ob hk => ?_, rfl, (fun _ _ h => nomatch h), rfl, List.nodup_nil, List.nodup_nil⟩
  · intro k o hk
    simp at hk
  · simp at hk

theorem Good.newEmbedded {e : Eng} {i o : Nat} {uri : String} {d : Def} (h : EngOK e → Readied e i o) :
    Good e (e.newEmbedded i o uri d) := by
  intro ok
  have hr := h ok
  have hext : EExt e (e.newEmbedded i o uri d) := fun j I hI =>
    ⟨I, by rw [newEmbedded_getElem? _ _ _ _ _ (List.getElem?_eq_some_iff.1 hI).1]; exact hI, Ext.refl _⟩
  have hcase : ∀ (j : Nat) (J : Inst), (e.newEmbedded i o uri d).insts[j]? = some J →
      e.insts[j]? = some J ∨ (j = e.insts.length ∧ J = { defn := d, uri := uri, subflowId := e.subflowCtr + 1, host := some (i, o) }) := by
    intro j J hJ
    have hlt : j < e.insts.length + 1 := by
      have := (List.getElem?_eq_some_iff.1 hJ).1
      simpa using this
    by_cases hj : j < e.insts.length
    · left; rw [newEmbedded_getElem? _ _ _ _ _ hj] at hJ; exact hJ
    · right
      have : j = e.insts.length := by omega
      subst this
      rw [newEmbedded_new] at hJ
      exact ⟨rfl, by simpa using hJ.symm⟩
  have hpos : i < e.insts.length := by
    obtain ⟨I, _, hI, _⟩ := hr
    exact (List.getElem?_eq_some_iff.1 hI).1
  refine ⟨⟨?_, ?_, ?_, ?_, ?_, ?_, ok.qlog, ok.qctr, ok.qmem, ok.qnodup, ?_⟩, hext⟩
  · intro j J hJ
    rcases hcase j J hJ with h1 | ⟨_, h1⟩
    · exact ok.ok j J h1
    · subst h1; exact instOK_new _ _ _ _
  · intro j J hJ
    rcases hcase j J hJ with h1 | ⟨h2, h1⟩
    · exact ok.sid j J h1
    · subst h1; subst h2; exact ok.ctr
  · rw [newEmbedded_length]
    have := ok.ctr
    simp only [Eng.newEmbedded]; omega
  · intro J hJ
    rcases hcase 0 J hJ with h1 | ⟨h2, _⟩
    · exact ok.host0 J h1
    · omega
  · intro j J hJ hj
    rcases hcase j J hJ with h1 | ⟨h2, h1⟩
    · obtain ⟨a, b, h3, h4, h5⟩ := ok.hosts j J h1 hj
      exact ⟨a, b, h3, h4, h5.ext hext⟩
    · subst h1
      exact ⟨i, o, rfl, by omega, hr.ext hext⟩
  · exact fun w hw => (ok.queue w hw).ext hext
  · intro k j hk
    simp only [Eng.newEmbedded, AMap.get?_set] at hk
    rw [newEmbedded_length]
    split at hk
    · rename_i hc
      simp at hk
      have := ok.ctr
      omega
    · obtain ⟨h1, h2, h3⟩ := ok.sub k j hk
      exact ⟨h1, h2, by omega⟩

/-! ### Evaluation -/

theorem Evals.good {i o : Nat} {s : Option String} {e e' : Eng} (h : Evals env i o s e e')
    (hr : Readied e i o) : Good e e' := by
  induction h with
  | refl e => exact .refl _
  | inst e f hf =>
    refine Good.modI fun _ I hI => Ext.same (hf I hI) fun ob hob => ?_
    obtain ⟨J, ob', h1, h2, h3⟩ := hr
    rw [hI] at h1; cases h1
    rw [hob] at h2; cases h2
    exact h3
  | reply e r => exact Good.ctl rfl rfl rfl rfl rfl (fun _ _ h => h)
  | sub e uri d inputs hs hd hi =>
    exact (Good.newEmbedded fun _ => hr).trans (Good.startInstance _ _ _)
  | trans h1 h2 ih1 ih2 =>
    exact Good.bind (ih1 hr) fun _ _ hx => ih2 (hr.ext hx)

theorem Readied.mem {e : Eng} {i o : Nat} (h : Readied e i o) {I : Inst} {ob : Obj} (hI : e.insts[i]? = some I)
    (ho : I.objs[o]? = some ob) : .taskStatus o ob.task .ready ∈ I.trace := by
  obtain ⟨J, ob', h1, h2, h3⟩ := h
  rw [hI] at h1; cases h1
  rw [ho] at h2; cases h2
  exact h3

theorem Good.setStatus {e : Eng} {i o : Nat} {st : TaskStatus} (hs : st = .waiting ∨ st = .done ∨ st = .failed)
    (hr : Readied e i o) : Good e (e.setStatus i o st) :=
  Good.modI fun _ _ hI => Ext.setTaskStatus' hs fun _ ho => hr.mem hI ho

/-- The same after a proper step. -/
theorem Good.thenStatus {e e' : Eng} (h : Good e e') {i o : Nat} {st : TaskStatus}
    (hs : st = .waiting ∨ st = .done ∨ st = .failed) (hr : Readied e i o) : Good e (e'.setStatus i o st) :=
  Good.bind h fun _ _ hx => Good.setStatus hs (hr.ext hx)

theorem evalKind_good {e : Eng} {i o : Nat} (td : TaskDef) (hr : Readied e i o) : Good e (e.evalKind env i o td).1 := by
  have hr0 := hr
  obtain ⟨I, ob, h1, h2, _⟩ := hr0
  obtain ⟨e', hev, heff⟩ := evalKind_spec (env := env) (show e.obj? i o = some ob by rw [obj?_eq h1, h2]) td
  have hg := hev.good hr
  revert heff
  generalize (e.evalKind env i o td).1 = e1
  generalize (e.evalKind env i o td).2 = r
  intro heff
  cases r with
  | res r =>
    cases r <;> simp only [EvalEff] at heff
    · exact heff ▸ hg
    · exact heff ▸ hg
    · rcases heff with heff | heff
      · exact heff ▸ hg
      · exact heff ▸ hg.thenStatus (by simp) hr
  | err er =>
    simp only [EvalEff] at heff
    rcases heff with heff | heff
    · exact heff ▸ hg
    · exact heff ▸ hg.thenStatus (by simp) hr
  | panic m => simp only [EvalEff] at heff; exact heff ▸ hg

theorem postKind_good {e : Eng} {i o : Nat} (td : TaskDef) (hr : Readied e i o) : Good e (e.postKind env i o td).1 := by
  have hr0 := hr
  obtain ⟨I, ob, h1, h2, _⟩ := hr0
  obtain ⟨e', hev, heff⟩ := postKind_spec (env := env) (show e.obj? i o = some ob by rw [obj?_eq h1, h2]) td
  have hg := hev.good hr
  have hd : Good e (e'.setStatus i o .done) := hg.thenStatus (by simp) hr
  have hf : Good e (e'.setStatus i o .failed) := hg.thenStatus (by simp) hr
  revert heff
  generalize (e.postKind env i o td).1 = e1
  generalize (e.postKind env i o td).2 = r
  intro heff
  cases r with
  | res r =>
    cases r <;> simp only [PostEff] at heff
    · rcases heff with heff | heff
      · exact heff ▸ hg
      · exact heff ▸ hd
    · exact heff ▸ hd
    · exact heff ▸ hg
  | err er =>
    simp only [PostEff] at heff
    rcases heff with heff | heff | heff
    · exact heff ▸ hg
    · exact heff ▸ hf
    · exact heff ▸ hd
  | panic m => simp only [PostEff] at heff; exact heff ▸ hd

/-! ### Results -/

theorem Good.setCtl (e : Eng) (c : Nat) (st : List Frame) : Good e { e with cur := c, stack := st } :=
  Good.ctl rfl rfl rfl rfl rfl (fun _ _ h => h)

theorem Good.complete (e : Eng) (i : Nat) : Good e (e.complete i) := by
  unfold Eng.complete
  split
  · exact .refl _
  · rename_i I hI
    have h1 : Good e (e.modI i (fun J => J.setFlowStatus .completed)) := Good.modI' fun _ => Ext.setFlowStatus _ (by decide)
    dsimp only
    split
    · exact h1
    · rename_i hi0
      have h2 : ∀ e2 : Eng, Good e e2 → Good e { e2 with subflows := e2.subflows.del I.subflowId } := by
        intro e2 h
        refine h.trans (Good.ctl rfl rfl rfl rfl rfl fun k j hk => ?_)
        simp only [AMap.get?_del] at hk
        split at hk
        · simp at hk
        · exact hk
      apply h2
      split
      · exact h1
      · rename_i hi ho hh
        refine (h1.trans (Good.modI' (i := hi) fun _ => Ext.modO (o := ho) (f := fun x => { x with outputs := I.returnData, returnError := none }) (fun _ => rfl) fun _ => rfl)).bind fun ok0 _ hx => Good.schedule fun _ => ?_
        obtain ⟨a, b, h3, _, h5⟩ := ok0.hosts i I hI hi0
        rw [hh] at h3; cases h3
        exact h5.ext hx

theorem Good.failHost (e : Eng) (i : Nat) (err : Err) : Good e (e.failHost i err) := by
  unfold Eng.failHost
  split
  · exact .refl _
  · rename_i I hI
    split
    · exact .refl _
    · rename_i hi ho hh
      refine (Good.modI' (i := hi) fun _ => Ext.modO (o := ho) (f := fun x => { x with returnError := some err }) (fun _ => rfl) fun _ => rfl).bind fun ok0 _ hx => Good.schedule fun _ => ?_
      by_cases hi0 : i = 0
      · subst hi0
        have := ok0.host0 I hI
        rw [this] at hh; cases hh
      · obtain ⟨a, b, h3, _, h5⟩ := ok0.hosts i I hI hi0
        rw [hh] at h3; cases h3
        exact h5.ext hx

theorem Good.appendErrorData (e : Eng) (i : Nat) (t : TaskId) (err : Err) : Good e (e.appendErrorData i t err) :=
  Good.modI' fun _ => (Ext.setValue _ _).trans (Ext.setValue _ _)

theorem Ext.startEH {I : Inst} (h : .ehStart ∉ I.trace) :
    Ext I { I with handling := true, trace := .ehStart :: I.trace } := by
  refine ⟨rfl, rfl, rfl, fun _ ob h => ⟨ob, h, rfl⟩, fun _ => rfl, fun h => h, ⟨[_], rfl⟩, ⟨[], rfl⟩, fun ok => ⟨⟨h, ok.trace⟩, ok.links, fun _ => rfl, ok.tasks, ⟨ok.mirror.link, ok.mirror.task, ok.mirror.stat, ok.mirror.flow, added_push (by simp) (objs_refl _) ok.mirror.added, ok.mirror.posts, ok.mirror.nodup⟩⟩⟩

theorem Good.globalError (e : Eng) (i : Nat) (err : Err) : Good e (e.globalError i err) := by
  unfold Eng.globalError
  split
  · exact .refl _
  · rename_i I hI
    split
    · exact Good.modI' fun _ => Ext.setFlowStatus _ (by decide)
    · rename_i hh
      dsimp only
      split
      · rename_i g hg
        -- reorder: clear the task table first, then set the flag and log the start together
        have hcomm : ((e.modI i (fun J => { J with handling := true })).modI 0 (fun J => J.clearTasks)).modI i
            (fun J => { J with trace := .ehStart :: J.trace }) =
            (e.modI 0 (fun J => J.clearTasks)).modI i
              (fun J => { J with handling := true, trace := .ehStart :: J.trace }) := by
          unfold Eng.modI
          congr 1
          apply List.ext_getElem?
          intro j
          simp only [List.getElem?_modify]
          by_cases h1 : i = j <;> by_cases h2 : 0 = j <;> simp [h1, h2] <;> cases e.insts[j]? <;> simp [Inst.clearTasks]
        refine Good.trans ?_ (Good.setCtl _ _ _)
        rw [hcomm]
        refine Good.bind (Good.modI' fun _ => Ext.clear) fun ok0 _ _ => Good.modI fun _ J hJ => Ext.startEH ?_
        have hJ' : ∃ J0, e.insts[i]? = some J0 ∧ (J.trace = J0.trace ∨ J.trace = .cleared :: J0.trace) := by
          rw [modI_getElem?] at hJ
          split at hJ
          · cases h3 : e.insts[i]? with
            | none => simp [h3] at hJ
            | some J0 => simp [h3] at hJ; exact ⟨J0, rfl, Or.inr (by rw [← hJ]; rfl)⟩
          · exact ⟨J, hJ, Or.inl rfl⟩
        obtain ⟨J0, h4, h5⟩ := hJ'
        rw [hI] at h4; cases h4
        intro hc
        refine hh ((ok0.ok i I hI).eh ?_)
        rcases h5 with h5 | h5
        · rw [h5] at hc; exact hc
        · rw [h5] at hc
          rcases List.mem_cons.1 hc with h6 | h6
          · cases h6
          · exact h6
      · have h1 : Good e ((e.modI i (fun J => { J with handling := true })).modI i (fun J => J.setFlowStatus .failed)) :=
          (Good.modI' fun _ => Ext.setHandling).trans (Good.modI' fun _ => Ext.setFlowStatus _ (by decide))
        split
        · exact h1.trans (Good.modI' fun _ => Ext.retError _)
        · exact h1.trans (Good.failHost _ _ _)

theorem Good.taskError {e : Eng} {i o : Nat} {ob : Obj} (ho : e.obj? i o = some ob) (hr : Readied e i o) (err : Err) :
    Good e (e.taskError i o ob.task err) := by
  obtain ⟨I, hI, hob⟩ := obj?_some ho
  unfold Eng.taskError
  rw [hI]
  have hx := Ext.errorTask hob (hr.mem hI hob)
  dsimp only
  split
  · rename_i I1 es h1
    rw [h1] at hx
    refine Good.trans (Good.modI fun _ J hJ => ?_) (Good.setCtl _ _ _)
    rw [hI] at hJ; cases hJ
    exact hx.trans (Ext.setValue _ _)
  · rename_i I1 h1
    rw [h1] at hx
    have h2 : Good e (e.modI i (fun _ => I1)) := Good.modI fun _ J hJ => by rw [hI] at hJ; cases hJ; exact hx
    split
    · have h3 := h2.trans (Good.modI' (i := i) fun _ => Ext.setFlowStatus .failed (by decide))
      split
      · exact h3.trans (Good.appendErrorData _ _ _ _)
      · exact h3.trans (Good.failHost _ _ _)
    · exact (h2.trans (Good.appendErrorData _ _ _ _)).trans (Good.globalError _ _ _)

theorem Good.finishTask (e : Eng) (i : Nat) (t : TaskRef) (n : Bool) (es : List TaskEntry) (rest : List Frame) :
    Good e (e.finishTask i t n es rest) := by
  unfold Eng.finishTask
  split
  · exact .refl _
  · split
    · exact (Good.complete _ _).trans (Good.setCtl _ _ _)
    · exact Good.setCtl _ _ _

theorem Good.taskDone {e : Eng} {i o : Nat} {ob : Obj} (ho : e.obj? i o = some ob) (hr : Readied e i o) :
    Good e (e.taskDone env i o ob.task) := by
  obtain ⟨I, hI, hob⟩ := obj?_some ho
  unfold Eng.taskDone
  rw [hI]
  have hx := Ext.doneTask (prio := env.prio) (ev := env.link e i) hob (hr.mem hI hob)
  dsimp only
  split
  · rename_i I1 m h1
    rw [h1] at hx
    refine Good.trans (Good.trans (Good.modI fun _ J hJ => ?_) (Good.appendErrorData _ _ _ _)) (Good.globalError _ _ _)
    rw [hI] at hJ; cases hJ; exact hx
  · rename_i I1 es h1
    rw [h1] at hx
    refine Good.trans (Good.modI fun _ J hJ => ?_) (Good.finishTask _ _ _ _ _ _)
    rw [hI] at hJ; cases hJ; exact hx

theorem Good.taskSkipped {e : Eng} {i o : Nat} {rest : List Frame}
    (h : ∀ I ob, e.insts[i]? = some I → I.objs[o]? = some ob → CanSkip I o ob.task) :
    Good e (e.taskSkipped i o rest) := by
  unfold Eng.taskSkipped
  split
  · exact .refl _
  · rename_i I hI
    split
    · exact Good.ctl rfl rfl rfl rfl rfl (fun _ _ h => h)
    · rename_i ob hob
      have hx := Ext.skipTask hob (h I ob hI hob)
      refine Good.trans (Good.modI fun _ J hJ => ?_) (Good.finishTask _ _ _ _ _ _)
      rw [hI] at hJ; cases hJ; exact hx

theorem Good.handleResult {e : Eng} {i o : Nat} {ob : Obj} (ho : e.obj? i o = some ob) (hr : Readied e i o)
    (name : String) (r : EvalOut) : Good e (e.handleResult env i o ob.task name r) := by
  unfold Eng.handleResult
  split
  · exact Good.taskError ho hr _
  · exact Good.taskDone ho hr
  · exact Good.taskDone ho hr
  · exact Good.setStatus (by simp) hr
  · exact Good.setStatus (by simp) hr
  · exact Good.schedule fun _ => hr
  · split
    · exact .refl _
    · split
      · exact .refl _
      · exact (Good.appendErrorData _ _ _ _).trans (Good.globalError _ _ _)

theorem Good.exec {e : Eng} {i o : Nat} (hr : Readied e i o) : Good e (e.exec env i o) := by
  unfold Eng.exec
  obtain ⟨I, ob, h1, h2, h3⟩ := hr
  have ho : e.obj? i o = some ob := by rw [obj?_eq h1, h2]
  have hr : Readied e i o := ⟨I, ob, h1, h2, h3⟩
  rw [ho]
  dsimp only
  have key : ∀ e1 : Eng, Good e e1 → ∀ name r, Good e (e1.handleResult env i o ob.task name r) := by
    intro e1 hg name r
    refine Good.bind hg fun _ _ hx => ?_
    obtain ⟨I', h4, h5⟩ := hx i I h1
    obtain ⟨ob', h6, h7⟩ := h5.objs o ob h2
    rw [← h7]
    exact Good.handleResult (by rw [obj?_eq h4, h6]) (hr.ext hx) name r
  split
  · exact .refl _
  · rename_i td _
    split
    · exact key _ (postKind_good td hr) _ _
    · exact .refl _
    · exact .refl _
    · exact key _ (evalKind_good td hr) _ _

theorem Good.enterEntry (e : Eng) (x : TaskEntry) (xs : List TaskEntry) (rest : List Frame) :
    Good e (e.enterEntry env x xs rest) := by
  unfold Eng.enterEntry
  split
  · exact Good.ctl rfl rfl rfl rfl rfl (fun _ _ h => h)
  · rename_i I hI
    obtain ⟨h1, h2, h3⟩ := enterTask_ext I x.task
    have hm : Good e (e.modI e.cur (fun _ => (I.enterTask x.task).1)) :=
      Good.modI fun _ J hJ => by rw [hI] at hJ; cases hJ; exact h1
    dsimp only
    split
    · exact hm.trans (Good.ctl rfl rfl rfl rfl rfl (fun _ _ h => h))
    · rename_i hev
      split
      · refine (hm.bind fun ok0 _ _ => Good.schedule fun _ => ?_).trans (Good.ctl rfl rfl rfl rfl rfl (fun _ _ h => h))
        obtain ⟨ob, h4, h5⟩ := h2 (ok0.ok _ I hI) hev
        exact ⟨_, ob, modI_self hI _, h4, h5⟩
      · exact hm.trans (Good.ctl rfl rfl rfl rfl rfl (fun _ _ h => h))
    · rename_i hev
      refine hm.trans (Good.taskSkipped fun J ob hJ hob => ?_)
      rw [modI_self hI] at hJ; cases hJ
      obtain ⟨ob', h4, h5⟩ := h3 hev
      rw [h4] at hob; cases hob
      exact h5

theorem Good.doStep (e : Eng) : Good e (e.doStep env) := by
  unfold Eng.doStep
  split
  · exact .refl _
  · dsimp only
    have h0 : Good e { e with stepID := e.stepID + 1 } := Good.ctl rfl rfl rfl rfl rfl (fun _ _ h => h)
    split
    · split
      · exact h0
      · rename_i w hw
        have h1 : Good e { e with queue := e.queue.eraseIdx (env.pick e % e.queue.length), qlog := .removed w :: e.qlog } :=
          Good.pop hw
        have h2 : Good { e with queue := e.queue.eraseIdx (env.pick e % e.queue.length), qlog := .removed w :: e.qlog }
            { e with stepID := e.stepID + 1, queue := e.queue.eraseIdx (env.pick e % e.queue.length), qlog := .removed w :: e.qlog } :=
          Good.ctl rfl rfl rfl rfl rfl (fun _ _ h => h)
        refine (h1.trans h2).bind fun ok0 _ hx => Good.exec ?_
        exact (ok0.queue w (List.mem_of_getElem? hw)).ext hx
    · exact h0

theorem Good.step (e : Eng) : Good e (e.step env) := by
  unfold Eng.step
  split
  · exact Good.doStep e
  · exact Good.ctl rfl rfl rfl rfl rfl (fun _ _ h => h)
  · exact Good.enterEntry _ _ _ _
  · exact (Good.modI' fun _ => Ext.release _).trans (Good.ctl rfl rfl rfl rfl rfl (fun _ _ h => h))

theorem engOK_new (id uri : String) (d : Def) : EngOK (Eng.new id uri d) := by
  have hc : ∀ (i : Nat) (I : Inst), (Eng.new id uri d).insts[i]? = some I → i = 0 ∧ I = { defn := d, uri := uri } := by
    intro i I h
    have := (List.getElem?_eq_some_iff.1 h).1
    simp [Eng.new] at this
    subst this
    simp [Eng.new] at h
    exact ⟨rfl, h.symm⟩
  refine ⟨?_, ?_, rfl, ?_, ?_, ?_, trivial, ?_, ?_, ?_, ?_⟩
  · intro i I h; obtain ⟨_, h2⟩ := hc i I h; subst h2; exact instOK_new _ _ _ _
  · intro i I h; obtain ⟨h1, h2⟩ := hc i I h; subst h2; exact h1.symm
  · intro I h; obtain ⟨_, h2⟩ := hc 0 I h; subst h2; rfl
  · intro i I h hi; exact absurd (hc i I h).1 hi
  · simp [Eng.new]
  · simp [Eng.new]
  · simp [Eng.new]
  · simp [Eng.new]
  · intro k j h; simp [Eng.new] at h

theorem engOK_init (id uri : String) (d : Def) (ins : AMap String Val) : EngOK (Eng.init env id uri d ins) :=
  (Good.startInstance 0 ins (Eng.new id uri d) (engOK_new id uri d)).1

theorem good_run (e : Eng) (n : Nat) : Good e (run env e n) := by
  induction n with
  | zero => exact .refl _
  | succ n ih => exact ih.trans (Good.step _)

theorem engOK_run (id uri : String) (d : Def) (ins : AMap String Val) (n : Nat) :
    EngOK (run env (Eng.init env id uri d ins) n) :=
  (good_run _ n (engOK_init id uri d ins)).1

end Eng
end Flow
