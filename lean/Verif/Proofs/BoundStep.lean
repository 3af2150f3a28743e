import Verif.Proofs.Bound
import Verif.Proofs.BoundLen
import Verif.Proofs.GraphEng

/-
Every step that is not a further round of a loop and does not start a called flow once more lowers the potential.
-/

namespace Flow.Bnd
open Spec Eng

variable {env : Env} {defs : String → Except Err (Option Def)} {ws : List Wt} {e : Eng} {a : Nat} {i : Nat} {W : Wt} {I : Inst} {d : Def}

theorem Fits.R (h : Fits defs d W) (t : TaskId) : W.r + 3 + ((outOf d t).map (fun l => W.E l.dst)).sum ≤ W.R t := by
  cases h with | mk sub hR hE hH hfit hr hC => exact hR t

theorem Fits.E (h : Fits defs d W) (t : TaskId) : 1 + W.R t + W.C t ≤ W.E t := by
  cases h with | mk sub hR hE hH hfit hr hC => exact hE t

theorem Fits.H (h : Fits defs d W) : 1 + entSum W (Inst.startEntries d true) ≤ W.H := by
  cases h with | mk sub hR hE hH hfit hr hC => exact hH

theorem Fits.call (h : Fits defs d W) {t : TaskRef} {td : TaskDef} {uri : String} {d' : Def} (h1 : d.task? t = some td)
    (h2 : td.act = .subflow uri) (h3 : defs uri = .ok (some d')) :
    ∃ V, Fits defs d' V ∧ W.R t.id ≤ V.r ∧ total d' V ≤ W.C t.id := by
  cases h with
  | mk sub hR hE hH hfit hr hC => exact ⟨sub t d', hfit t td uri d' h1 h2 h3, hr t td uri d' h1 h2 h3, hC t td uri d' h1 h2 h3⟩

/-- A change that sets `c` free. -/
theorem Pot.free {c : Nat} {f : Inst → Inst} (h : Pot defs ws a e) (hI : e.insts[i]? = some I) (hW : ws[i]? = some W)
    (hc : Chg W 0 I (f I)) (hf : instPot W (f I) + c ≤ instPot W I) : ∃ a', a' + c ≤ a ∧ Pot defs ws a' (e.modI i f) := by
  have h1 := (Pot.modI (c := 0) (f := f) h fun I' W' h1 h2 => by
    rw [hI] at h1; rw [hW] at h2; cases h1; cases h2; exact hc)
  have ho : ∀ I', e.insts[i]? = some I' → ∀ (p : Nat) ob, I'.objs[p]? = some ob → ∃ ob', (f I').objs[p]? = some ob' ∧ ob'.task = ob.task := by
    intro I' hI'
    rw [hI] at hI'; cases hI'
    exact hc.objs
  have hq : queuePot ws (e.modI i f) = queuePot ws e := by
    unfold queuePot
    congr 1
    apply List.map_congr_left
    intro w hw
    obtain ⟨ob, h1⟩ := h.inv.queue w hw
    obtain ⟨ob', h2, h3⟩ := obj_modI ho h1
    exact item_eq h1 h2 h3
  refine ⟨_, ?_, Pot.self h1.inv⟩
  have hs : sumI ws (e.modI i f).insts + instPot W I = sumI ws e.insts + instPot W (f I) := sumI_modify hI hW f
  have := h.le
  omega

theorem Pot.quiet {f : Inst → Inst} (h : Pot defs ws a e) (hf : ∀ I, e.insts[i]? = some I → Quiet I (f I)) : Pot defs ws a (e.modI i f) :=
  h.modI (c := 0) fun I _ hI _ => (hf I hI).chg

theorem Pot.weight (h : Pot defs ws a e) (hI : e.insts[i]? = some I) : ∃ W, ws[i]? = some W := by
  have : i < ws.length := by rw [h.inv.len]; exact (List.getElem?_eq_some_iff.mp hI).1
  exact ⟨_, List.getElem?_eq_getElem this⟩

/-! ### Starting flows -/

theorem entSum_cons (x : TaskEntry) (xs : List TaskEntry) : entSum W (x :: xs) = W.E x.task.id + entSum W xs := by
  simp [entSum]

/-- A task is entered. -/
theorem Pot.enter (h : Pot defs ws a e) (hI : e.insts[i]? = some I) (hW : ws[i]? = some W) (t : TaskRef) :
    Pot defs ws (a + W.C t.id) (e.modI i (fun _ => (I.enterTask t).1)) ∧
      ∃ ob, (e.modI i (fun _ => (I.enterTask t).1)).obj? i (I.enterTask t).2.1 = some ob ∧ ob.task.id = t.id := by
  obtain ⟨h1, ob, h2, h3⟩ := enterTask_chg (W := W) I t (h.inv.tab i I hI)
  refine ⟨h.modI fun I' W' h4 h5 => ?_, ob, ?_, h3⟩
  · rw [hI] at h4; rw [hW] at h5; cases h4; cases h5; exact h1
  · rw [obj?_eq (modI_self hI _)]; exact h2

theorem Pot.enterStart (es : List TaskEntry) : ∀ {e : Eng} {a : Nat}, Pot defs ws a e → ws[i]? = some W →
    Pot defs ws (a + entSum W es) (enterStart env e i es) := by
  induction es with
  | nil => intro e a h _; exact h
  | cons x xs ih =>
    intro e a h hW
    unfold Eng.enterStart
    rw [entSum_cons]
    split
    · exact h.mono (by omega)
    · rename_i I hI
      obtain ⟨h1, ob, h2, h3⟩ := h.enter hI hW x.task
      have hE := (h.inv.fits i I W hI hW).E x.task.id
      dsimp only
      split
      · split
        · have h4 := h1.schedule hW h2
          rw [h3] at h4
          exact (ih h4 hW).mono (by omega)
        · exact h1.mono (by omega)
      · exact (ih h1 hW).mono (by omega)

theorem Pot.startInstance (h : Pot defs ws a e) (hI : e.insts[i]? = some I) (hW : ws[i]? = some W) (ins : AMap String Val) :
    Pot defs ws (a + entSum W (Inst.startEntries I.defn false)) (startInstance env e i ins) := by
  unfold Eng.startInstance
  rw [hI]
  dsimp only
  refine Pot.enterStart _ (h.quiet fun J hJ => ?_) hW
  rw [hI] at hJ; cases hJ
  exact ⟨rfl, rfl, rfl, rfl, rfl⟩

theorem Chg.same {o : Nat} {I I' : Inst} (h : SameInst o I I') : Chg W 0 I I' := by
  have hob : ∀ (p : Nat) ob, I.objs[p]? = some ob → ∃ ob', I'.objs[p]? = some ob' ∧ ob'.task = ob.task := by
    intro p ob hp
    have := h.core p
    rw [hp] at this
    cases hp' : I'.objs[p]? with
    | none => rw [hp'] at this; simp at this
    | some ob' => rw [hp'] at this; simp at this; exact ⟨ob', rfl, this.1⟩
  refine ⟨h.defn, h.host, hob, fun ht k o' hk => ?_, ?_⟩
  · rw [h.tasks] at hk
    obtain ⟨ob, h1, h2⟩ := ht k o' hk
    obtain ⟨ob', h3, h4⟩ := hob o' ob h1
    exact ⟨ob', h3, by rw [h4]; exact h2⟩
  · have : I'.objs.map (cred W) = I.objs.map (cred W) := by
      apply List.ext_getElem?
      intro p
      rw [List.getElem?_map, List.getElem?_map]
      have := h.core p
      cases hp : I.objs[p]? with
      | none =>
        rw [hp] at this
        cases hp' : I'.objs[p]? with
        | none => rfl
        | some ob' => rw [hp'] at this; simp at this
      | some ob =>
        rw [hp] at this
        cases hp' : I'.objs[p]? with
        | none => rw [hp'] at this; simp at this
        | some ob' =>
          rw [hp'] at this
          simp at this
          simp [cred, this.1, this.2]
    unfold instPot credSum
    rw [this, h.handling]
    exact Nat.le_refl _

/-- An evaluation costs the flows it starts. -/
theorem Pot.evals {o : Nat} {s : Option String} {e' : Eng} (h : Evals env i o s e e') :
    ∀ {ws : List Wt} {a : Nat} {ob : Obj}, Pot env.defs ws a e → ws[i]? = some W → e.obj? i o = some ob → (∀ u, s = some u → e.subOf i o = some u) →
      ∃ ws', Grows ws ws' ∧ Pot env.defs ws' (a + (e'.insts.length - e.insts.length) * W.C ob.task.id) e' := by
  induction h with
  | refl e => intro ws a ob hp _ _ _; exact ⟨ws, .refl _, hp.mono (by omega)⟩
  | inst e f h =>
    intro ws a ob hp _ _ _
    exact ⟨ws, .refl _, (hp.modI (c := 0) fun I _ hI _ => .same (h I hI)).mono (by omega)⟩
  | reply e r => intro ws a ob hp _ _ _; exact ⟨ws, .refl _, (hp.congr (e' := { e with replies := r }) rfl rfl).mono (by omega)⟩
  | sub e uri d inputs hs hd hi =>
    intro ws a ob hp hW ho hsub
    obtain ⟨I, hI, hob⟩ := obj?_some ho
    have h1 := hsub uri hs
    unfold Eng.subOf at h1
    rw [ho] at h1
    dsimp only at h1
    cases htd : e.taskDef? i ob.task with
    | none => rw [htd] at h1; cases h1
    | some td =>
      rw [htd] at h1
      dsimp only at h1
      have hact : td.act = .subflow uri := by
        revert h1
        cases td.act <;> simp [ActKind.sub?]
      have htd' : I.defn.task? ob.task = some td := by
        unfold Eng.taskDef? at htd
        rw [hI] at htd
        exact htd
      obtain ⟨V, h2, h3, h4⟩ := (hp.inv.fits i I W hI hW).call htd' hact hd
      refine ⟨ws ++ [V], ⟨[V], rfl⟩, ?_⟩
      have h5 := hp.newEmbedded (uri := uri) hW ho h2 h3
      have h6 : (ws ++ [V])[e.insts.length]? = some V := by
        rw [← hp.inv.len, List.getElem?_append_right (Nat.le_refl _), Nat.sub_self]
        rfl
      have h7 := h5.startInstance (env := env) (newEmbedded_new e i o uri d) h6 inputs
      refine h7.mono ?_
      rw [(StartFrame.startInstance _ _ _).len, newEmbedded_length, Nat.add_sub_cancel_left, Nat.one_mul]
      unfold total at h4
      show a + V.H + entSum V (Inst.startEntries d false) ≤ _
      omega
  | trans g1 g2 ih1 ih2 =>
    rename_i e f g
    intro ws a ob hp hW ho hsub
    obtain ⟨ws1, k1, p1⟩ := ih1 hp hW ho hsub
    obtain ⟨ob', ho', ht, _⟩ := g1.obj_task ho
    have hsub' : ∀ u, s = some u → f.subOf i o = some u := fun u hu => (g1.subOf_eq ho).trans (hsub u hu)
    obtain ⟨ws2, k2, p2⟩ := ih2 p1 (k1.get hW) ho' hsub'
    refine ⟨ws2, k1.trans k2, p2.mono ?_⟩
    have l1 := g1.obj.1
    have l2 := g2.obj.1
    rw [ht]
    rw [show g.insts.length - e.insts.length = (f.insts.length - e.insts.length) + (g.insts.length - f.insts.length) by omega, Nat.add_mul]
    omega

/-! ### Ends and errors -/

def stackSum (W : Wt) (st : List Frame) : Nat := (st.map (framePot W)).sum

/-- The state costs at most `a`. -/
def Full (defs : String → Except Err (Option Def)) (ws : List Wt) (a : Nat) (e : Eng) : Prop :=
  ∃ b, Pot defs ws b e ∧ ((e.stack = [] ∧ b ≤ a) ∨ ∃ W, ws[e.cur]? = some W ∧ b + stackSum W e.stack ≤ a)

theorem Full.mono {a' : Nat} (h : Full defs ws a e) (ha : a ≤ a') : Full defs ws a' e := by
  obtain ⟨b, h1, h2⟩ := h
  refine ⟨b, h1, ?_⟩
  rcases h2 with ⟨h2, h3⟩ | ⟨W, h2, h3⟩
  · exact .inl ⟨h2, by omega⟩
  · exact .inr ⟨W, h2, by omega⟩

theorem Pot.full (h : Pot defs ws a e) (hs : e.stack = []) : Full defs ws a e := ⟨a, h, .inl ⟨hs, Nat.le_refl _⟩⟩

/-- The task that called the flow is scheduled. -/
theorem Pot.reply {hi ho : Nat} {f : Obj → Obj} (h : Pot defs ws a e) (hI : e.insts[i]? = some I) (hW : ws[i]? = some W)
    (hh : I.host = some (hi, ho)) (hf : ∀ x, (f x).task = x.task) (hf' : ∀ x, (f x).status = x.status) :
    Pot defs ws (a + W.r) ((e.modI hi (fun H => H.modO ho f)).schedule hi ho) := by
  obtain ⟨V, ob, h1, h2, h3⟩ := h.inv.host i I W hi ho hI hW hh
  have hc : ∀ H : Inst, ∀ U, Chg U 0 H (H.modO ho f) := fun H U =>
    .modify (o := ho) (f := f) rfl rfl rfl rfl rfl hf fun x _ => by
      unfold cred
      rw [hf, hf']
      exact Nat.le_refl _
  have h4 := h.modI (c := 0) (i := hi) (f := fun H => H.modO ho f) fun H U _ _ => hc H U
  obtain ⟨ob', h5, h6⟩ := obj_modI (i := hi) (f := fun H => H.modO ho f) (fun H _ => (hc H V).objs) h2
  have h7 := h4.schedule h1 h5
  rw [h6] at h7
  exact h7.mono (by omega)

theorem Pot.failHost (h : Pot defs ws a e) (hW : ws[i]? = some W) (err : Err) : Pot defs ws (a + W.r) (e.failHost i err) := by
  unfold Eng.failHost
  split
  · exact h.mono (by omega)
  · rename_i I hI
    split
    · exact h.mono (by omega)
    · rename_i hi ho hh
      exact h.reply hI hW hh (fun _ => rfl) (fun _ => rfl)

theorem Pot.complete (h : Pot defs ws a e) (hW : ws[i]? = some W) : Pot defs ws (a + W.r) (e.complete i) := by
  unfold Eng.complete
  split
  · exact h.mono (by omega)
  · rename_i I hI
    have h1 : Pot defs ws a (e.modI i (fun J => J.setFlowStatus .completed)) := h.quiet fun J _ => ⟨rfl, rfl, rfl, rfl, rfl⟩
    dsimp only
    split
    · exact h1.mono (by omega)
    · cases hh : I.host with
      | none => exact Pot.mono (a := a) (h1.congr rfl rfl) (by omega)
      | some x =>
        obtain ⟨hi, ho⟩ := x
        exact (h1.reply (f := fun x => { x with outputs := I.returnData, returnError := none }) (modI_self hI _) hW hh
          (fun _ => rfl) (fun _ => rfl)).congr rfl rfl

theorem failHost_stack (e : Eng) (i : Nat) (err : Err) : (e.failHost i err).stack = e.stack := by
  unfold Eng.failHost
  split
  · rfl
  · split <;> rfl

theorem Pot.globalError (h : Pot defs ws a e) (hs : e.stack = []) (hI : e.insts[i]? = some I) (hW : ws[i]? = some W) (err : Err) :
    Full defs ws (a + W.r) (e.globalError i err) := by
  unfold Eng.globalError
  rw [hI]
  dsimp only
  split
  · exact ((h.quiet (f := fun J => J.setFlowStatus .failed) fun J _ => ⟨rfl, rfl, rfl, rfl, rfl⟩).full hs).mono (by omega)
  · rename_i hh
    obtain ⟨a', h1, h2⟩ := h.free (c := W.H) (f := fun J => { J with handling := true }) hI hW
      (.plain rfl rfl rfl (fun ht => ht.same rfl rfl) (.inr rfl)) (by unfold instPot; simp [hh])
    split
    · refine ⟨a', ?_, .inr ⟨W, hW, ?_⟩⟩
      · have h3 := h2.modI (c := 0) (i := 0) (f := fun J => J.clearTasks) fun J U _ _ =>
          Chg.plain rfl rfl rfl (fun _ k o hk => by cases hk) (.inl rfl)
        have h4 := h3.quiet (i := i) (f := fun J => { J with trace := .ehStart :: J.trace }) fun J _ => ⟨rfl, rfl, rfl, rfl, rfl⟩
        exact h4.congr rfl rfl
      · have := (h.inv.fits i I W hI hW).H
        simp only [stackSum, List.map_cons, List.map_nil, List.sum_cons, List.sum_nil, framePot]
        omega
    · have h3 := h2.quiet (i := i) (f := fun J => J.setFlowStatus .failed) fun J _ => ⟨rfl, rfl, rfl, rfl, rfl⟩
      split
      · have h4 := h3.quiet (i := 0) (f := fun J => { J with returnError := some err }) fun J _ => ⟨rfl, rfl, rfl, rfl, rfl⟩
        exact (h4.full hs).mono (by omega)
      · have h4 := h3.failHost hW err
        exact (h4.full ((failHost_stack _ _ _).trans hs)).mono (by omega)

theorem Pot.appendErrorData (h : Pot defs ws a e) (i : Nat) (t : TaskId) (err : Err) : Pot defs ws a (e.appendErrorData i t err) :=
  h.quiet fun _ _ => ⟨rfl, rfl, rfl, rfl, rfl⟩

theorem appendErrorData_at (hI : e.insts[i]? = some I) (t : TaskId) (err : Err) : ∃ J, (e.appendErrorData i t err).insts[i]? = some J :=
  ⟨_, modI_self hI _⟩

/-- What the successors of a task cost. -/
def succs (W : Wt) (d : Def) (t : TaskId) : Nat := ((outOf d t).map (fun l => W.E l.dst)).sum

theorem Pot.finishTask (h : Pot defs ws a e) (hI : e.insts[i]? = some I) (hW : ws[i]? = some W) (t : TaskRef) (notify : Bool)
    (es : List TaskEntry) (rest : List Frame) :
    Full defs ws (a + W.r + 2 + entSum W es + stackSum W rest) (e.finishTask i t notify es rest) := by
  unfold Eng.finishTask
  rw [hI]
  dsimp only
  split
  · refine ⟨a + W.r, (h.complete hW).congr rfl rfl, .inr ⟨W, hW, ?_⟩⟩
    simp only [stackSum, List.map_cons, List.sum_cons, framePot]
    omega
  · refine ⟨a, h.congr rfl rfl, .inr ⟨W, hW, ?_⟩⟩
    simp only [stackSum, List.map_cons, List.sum_cons, framePot]
    omega

theorem doneTask_chg (prio : Bool) (ev : LinkDef → ExprOut) (I : Inst) (o : Nat) (t : TaskRef) :
    Chg W 0 I (I.doneTask prio ev o t).1 ∧ ∀ es, (I.doneTask prio ev o t).2 = .ok es → entSum W es ≤ succs W I.defn t.id := by
  have h1 : ∀ rows, Chg W 0 I ((((I.findLinks (I.defn.toLinks t)).setTaskStatus o .done)).applyRows rows) := fun rows =>
    ((Quiet.findLinks _ I).chg.trans (Chg.close _ o rfl)).trans (Quiet.applyRows _ _).chg
  unfold Inst.doneTask
  dsimp only
  split
  · exact ⟨h1 _, fun es h => nomatch h⟩
  · rename_i rows hr
    refine ⟨h1 _, fun es h => ?_⟩
    cases h
    rw [entSum_sorted, entSum_rows (GraphM.doneRows_rowsOK hr).1.links]
    exact outOf_toLinks t

theorem skipTask_chg (I : Inst) (o : Nat) (t : TaskRef) :
    Chg W 0 I (I.skipTask o t).1 ∧ entSum W (I.skipTask o t).2 ≤ succs W I.defn t.id := by
  refine ⟨((Quiet.findLinks _ I).chg.trans (Chg.close _ o rfl)).trans (Quiet.applyRows _ _).chg, ?_⟩
  unfold Inst.skipTask
  dsimp only
  rw [entSum_rows (ls := I.defn.toLinks t)]
  · exact outOf_toLinks t
  · unfold skipRows
    rw [List.map_map]
    exact List.map_id _

theorem errorTask_chg (I : Inst) (o : Nat) (t : TaskRef) :
    Chg W 0 I (I.errorTask o t).1 ∧ ∀ es, (I.errorTask o t).2 = some es → entSum W es ≤ succs W I.defn t.id := by
  have h1 : Chg W 0 I ((I.setTaskStatus o .failed).findLinks (I.defn.toLinks t)) :=
    (Chg.close I o rfl).trans (Quiet.findLinks _ _).chg
  unfold Inst.errorTask
  dsimp only
  split
  · exact ⟨h1, fun es h => nomatch h⟩
  · rename_i rows hr
    refine ⟨h1.trans (Quiet.applyRows _ _).chg, fun es h => ?_⟩
    cases h
    rw [entSum_sorted, entSum_rows (GraphM.errorRows_ok hr).1.links]
    exact outOf_toLinks t

/-- The instance is replaced. -/
theorem Pot.put {J : Inst} (h : Pot defs ws a e) (hI : e.insts[i]? = some I) (hW : ws[i]? = some W) (hc : Chg W 0 I J) :
    Pot defs ws a (e.modI i (fun _ => J)) :=
  h.modI (c := 0) fun I' W' h1 h2 => by rw [hI] at h1; rw [hW] at h2; cases h1; cases h2; exact hc

theorem Pot.taskError (h : Pot defs ws a e) (hs : e.stack = []) (hI : e.insts[i]? = some I) (hW : ws[i]? = some W) (o : Nat) (t : TaskRef)
    (err : Err) : Full defs ws (a + W.r + 2 + succs W I.defn t.id) (e.taskError i o t err) := by
  obtain ⟨h1, h2⟩ := errorTask_chg (W := W) I o t
  unfold Eng.taskError
  rw [hI]
  dsimp only
  split
  · rename_i I1 es hx
    rw [hx] at h1 h2
    have h3 := h2 es rfl
    refine ⟨a, (h.put (J := I1.setValue _ _) hI hW ?_).congr rfl rfl, .inr ⟨W, hW, ?_⟩⟩
    · exact h1.trans (K := I1.setValue _ _) (Quiet.chg ⟨rfl, rfl, rfl, rfl, rfl⟩)
    · simp only [stackSum, List.map_cons, List.map_nil, List.sum_cons, List.sum_nil, framePot]
      omega
  · rename_i I1 hx
    rw [hx] at h1
    have h3 := h.put (J := I1) hI hW h1
    have hI1 : (e.modI i (fun _ => I1)).insts[i]? = some I1 := modI_self hI _
    split
    · have h4 := h3.quiet (i := i) (f := fun J => J.setFlowStatus .failed) fun J _ => ⟨rfl, rfl, rfl, rfl, rfl⟩
      split
      · exact ((h4.appendErrorData i t.id err).full hs).mono (by omega)
      · exact ((h4.failHost hW err).full ((failHost_stack _ _ _).trans hs)).mono (by omega)
    · obtain ⟨J, hJ⟩ := appendErrorData_at hI1 t.id err
      exact ((h3.appendErrorData i t.id err).globalError hs hJ hW err).mono (by omega)

theorem Pot.taskDone (h : Pot defs ws a e) (hs : e.stack = []) (hI : e.insts[i]? = some I) (hW : ws[i]? = some W) (o : Nat) (t : TaskRef) :
    Full defs ws (a + W.r + 2 + succs W I.defn t.id) (taskDone env e i o t) := by
  obtain ⟨h1, h2⟩ := doneTask_chg (W := W) env.prio (env.link e i) I o t
  unfold Eng.taskDone
  rw [hI]
  dsimp only
  split
  · rename_i I1 m hx
    rw [hx] at h1
    have h3 := h.put (J := I1) hI hW h1
    have hI1 : (e.modI i (fun _ => I1)).insts[i]? = some I1 := modI_self hI _
    obtain ⟨J, hJ⟩ := appendErrorData_at hI1 t.id _
    exact ((h3.appendErrorData i t.id _).globalError hs hJ hW _).mono (by omega)
  · rename_i I1 es hx
    rw [hx] at h1 h2
    have h3 := h.put (J := I1) hI hW h1
    have hI1 : (e.modI i (fun _ => I1)).insts[i]? = some I1 := modI_self hI _
    have h4 := h2 es rfl
    refine (h3.finishTask hI1 hW t _ es []).mono ?_
    simp only [stackSum, List.map_nil, List.sum_nil]
    omega

theorem Pot.taskSkipped {o : Nat} {ob : Obj} (h : Pot defs ws a e) (hI : e.insts[i]? = some I) (hW : ws[i]? = some W)
    (ho : I.objs[o]? = some ob) (rest : List Frame) :
    Full defs ws (a + W.r + 2 + succs W I.defn ob.task.id + stackSum W rest) (e.taskSkipped i o rest) := by
  obtain ⟨h1, h2⟩ := skipTask_chg (W := W) I o ob.task
  unfold Eng.taskSkipped
  rw [hI]
  dsimp only
  rw [ho]
  dsimp only
  have h3 := h.put (J := (I.skipTask o ob.task).1) hI hW h1
  exact (h3.finishTask (modI_self hI _) hW ob.task _ _ rest).mono (by omega)

theorem Pot.status (h : Pot defs ws a e) (i o : Nat) {s : TaskStatus} (hs : closed s = true) : Pot defs ws a (e.setStatus i o s) :=
  h.modI (c := 0) fun I _ _ _ => .close I o hs

theorem Pot.handleResult {o : Nat} (h : Pot defs ws a e) (hs : e.stack = []) (hI : e.insts[i]? = some I) (hW : ws[i]? = some W) (t : TaskRef)
    (name : String) {r : EvalOut} (hr : isAgain r = false) :
    Full defs ws (a + W.r + 2 + succs W I.defn t.id) (handleResult env e i o t name r) := by
  unfold Eng.handleResult
  split
  · exact h.taskError hs hI hW o t _
  · exact h.taskDone hs hI hW o t
  · exact h.taskDone hs hI hW o t
  · exact ((h.status i o rfl).full hs).mono (by omega)
  · exact ((h.status i o rfl).full hs).mono (by omega)
  · cases hr
  · rw [hI]
    dsimp only
    split
    · exact (h.full hs).mono (by omega)
    · obtain ⟨J, hJ⟩ := appendErrorData_at hI t.id _
      exact ((h.appendErrorData i t.id _).globalError hs hJ hW _).mono (by omega)

/-! ### Steps -/

theorem sum_eraseIdx {l : List Nat} {k x : Nat} (h : l[k]? = some x) : (l.eraseIdx k).sum + x = l.sum := by
  induction l generalizing k with
  | nil => simp at h
  | cons y ys ih =>
    cases k with
    | zero => simp at h; subst h; simp [Nat.add_comm]
    | succ k =>
      simp only [List.getElem?_cons_succ] at h
      have := ih h
      simp only [List.eraseIdx_cons_succ, List.sum_cons]
      omega

theorem map_eraseIdx {α β : Type} (f : α → β) (l : List α) (k : Nat) : (l.eraseIdx k).map f = (l.map f).eraseIdx k := by
  induction l generalizing k with
  | nil => rfl
  | cons x xs ih => cases k with
    | zero => rfl
    | succ k => simp [ih]

/-- The work item is taken out of the queue. -/
theorem Pot.pop {w : WorkItem} (h : Pot defs ws a e) (hn : next env e = some w) :
    ∃ ob W a', e.obj? w.inst w.obj = some ob ∧ ws[w.inst]? = some W ∧ a' + W.R ob.task.id ≤ a ∧ Pot defs ws a' (afterPop env e w) := by
  obtain ⟨_, _, hk⟩ := next_some hn
  obtain ⟨ob, hob⟩ := h.inv.queue w (List.mem_of_getElem? hk)
  obtain ⟨I, hI, _⟩ := obj?_some hob
  obtain ⟨W, hW⟩ := h.weight hI
  have hinv : Inv defs ws (afterPop env e w) :=
    ⟨h.inv.len, h.inv.fits, h.inv.tab, h.inv.host, fun v hv => h.inv.queue v (List.mem_of_mem_eraseIdx hv)⟩
  refine ⟨ob, W, _, hob, hW, ?_, Pot.self hinv⟩
  have hitem : item ws e w = W.R ob.task.id := by
    unfold item
    rw [hW, hob]
  have hq : queuePot ws (afterPop env e w) + item ws e w = queuePot ws e := by
    unfold queuePot Spec.afterPop
    dsimp only
    rw [map_eraseIdx]
    refine sum_eraseIdx ?_
    rw [List.getElem?_map, hk]
    rfl
  have := h.le
  show sumI ws e.insts + queuePot ws (afterPop env e w) + _ ≤ a
  omega

/-- The state after the evaluation, before the result is handled. -/
theorem outcome_closes {o : Nat} {e' : Eng} {r : EvalOut} (h : outcome env e i o = some (e', r)) :
    ∃ ob e1, e.obj? i o = some ob ∧ Evals env i o (e.subOf i o) e e1 ∧ (e' = e1 ∨ ∃ st, closed st = true ∧ e' = e1.setStatus i o st) ∧
      (closed ob.status = false → Grown (GraphM.waits r) e e') := by
  unfold Spec.outcome at h
  cases ho : e.obj? i o with
  | none => rw [ho] at h; cases h
  | some ob =>
    rw [ho] at h
    dsimp only at h
    cases htd : e.taskDef? i ob.task with
    | none => rw [htd] at h; cases h
    | some td =>
      rw [htd] at h
      dsimp only at h
      split at h
      · rename_i hw
        obtain ⟨e1, hev, heff⟩ := postKind_spec (env := env) ho td
        simp only [Option.some.injEq] at h
        rw [h] at heff
        refine ⟨ob, e1, rfl, hev, ?_, fun hc => by rw [hw] at hc; cases hc⟩
        cases r with
        | res r =>
          cases r <;> simp only [PostEff] at heff
          · rcases heff with heff | heff
            · exact .inl heff
            · exact .inr ⟨_, rfl, heff⟩
          · exact .inr ⟨_, rfl, heff⟩
          · exact .inl heff
        | err er =>
          simp only [PostEff] at heff
          rcases heff with heff | heff | heff
          · exact .inl heff
          · exact .inr ⟨_, rfl, heff⟩
          · exact .inr ⟨_, rfl, heff⟩
        | panic m => exact .inr ⟨_, rfl, heff⟩
      · split at h
        · cases h
        · obtain ⟨e1, hev, heff⟩ := evalKind_spec (env := env) ho td
          simp only [Option.some.injEq] at h
          have hg := grown_evalKind (env := env) (i := i) (o := o) e td
          rw [h] at heff hg
          refine ⟨ob, e1, rfl, hev, ?_, fun _ => hg⟩
          cases r with
          | res r =>
            cases r <;> unfold EvalEff at heff
            all_goals first
              | exact .inl heff
              | exact False.elim heff
              | (rcases heff with heff | heff
                 · exact .inl heff
                 · exact .inr ⟨_, rfl, heff⟩)
          | err er =>
            simp only [EvalEff] at heff
            rcases heff with heff | heff
            · exact .inl heff
            · exact .inr ⟨_, rfl, heff⟩
          | panic m => exact .inl heff

theorem closed_cases {s : TaskStatus} (h : closed s = true) : s = .waiting ∨ s = .done ∨ s = .skipped ∨ s = .failed := by
  cases s <;> simp [closed] at h ⊢

/-- Executing a work item. -/
theorem Pot.exec {w : WorkItem} (h : Pot env.defs ws a e) (hn : next env e = some w) (hres : ¬ Restarts env e) :
    ∃ ws', Grows ws ws' ∧
      ((loopsBack env e = true ∧ Full env.defs ws' a (e.step env)) ∨ ∃ a', a' < a ∧ Full env.defs ws' a' (e.step env)) := by
  obtain ⟨ob, W, a0, hob, hW, ha, h0⟩ := h.pop hn
  obtain ⟨hst, _, _⟩ := next_some hn
  have hob0 : (afterPop env e w).obj? w.inst w.obj = some ob := hob
  obtain ⟨I, hI, hIo⟩ := obj?_some hob0
  have hfit := h0.inv.fits _ I W hI hW
  have hR := hfit.R ob.task.id
  rw [step_next hn]
  cases hout : outcome env (afterPop env e w) w.inst w.obj with
  | none =>
    rw [exec_none hout]
    exact ⟨ws, .refl _, .inr ⟨a0, by omega, h0.full hst⟩⟩
  | some x =>
    obtain ⟨e', r⟩ := x
    obtain ⟨td, htd, hex⟩ := exec_outcome hob0 hout
    obtain ⟨ob', e1, ho', hev, hcl, hg⟩ := outcome_closes hout
    rw [hob0] at ho'; cases ho'
    rw [hex]
    obtain ⟨ws', hgr, hp1⟩ := Pot.evals hev h0 hW hob0 (fun u hu => hu)
    obtain ⟨I1, hI1, hsame⟩ := hev.obj.2.1 I hI
    have hlen1 := hev.obj.1
    have hst1 : e1.stack = [] := hev.obj.2.2.2.1.trans hst
    have hW' := hgr.get hW
    obtain ⟨ob1, hob1, ht1, hs1⟩ := hev.obj_task hob0
    have hlen' : e'.insts.length = e1.insts.length := by
      rcases hcl with rfl | ⟨st, _, rfl⟩
      · rfl
      · exact modI_length _ _ _
    have hst' : e'.stack = [] := by
      rcases hcl with rfl | ⟨st, _, rfl⟩
      · exact hst1
      · exact hst1
    have hput : ∀ b, Pot env.defs ws' b e1 → Pot env.defs ws' b e' := by
      intro b hb
      rcases hcl with rfl | ⟨st, hc, rfl⟩
      · exact hb
      · exact hb.status _ _ hc
    have hI' : ∃ I', e'.insts[w.inst]? = some I' ∧ I'.defn = I.defn := by
      rcases hcl with rfl | ⟨st, hc, rfl⟩
      · exact ⟨I1, hI1, hsame.defn⟩
      · exact ⟨_, modI_self hI1 _, (set_facts I1 _ _).1.trans hsame.defn⟩
    obtain ⟨I', hI', hd'⟩ := hI'
    refine ⟨ws', hgr, ?_⟩
    by_cases hk : e1.insts.length = (afterPop env e w).insts.length
    · -- no flow was started
      rw [hk, Nat.sub_self, Nat.zero_mul, Nat.add_zero] at hp1
      have hp' := hput _ hp1
      by_cases hag : isAgain r = true
      · left
        refine ⟨?_, ?_⟩
        · unfold Spec.loopsBack
          rw [hn]
          simp only [Option.any_some]
          rw [hout]
          exact hag
        · cases r with
          | res r =>
            cases r <;> simp [Spec.isAgain] at hag
            obtain ⟨ob2, hob2, ht2⟩ : ∃ ob2, e'.obj? w.inst w.obj = some ob2 ∧ ob2.task = ob1.task := by
              rcases hcl with rfl | ⟨st, hc, rfl⟩
              · exact ⟨ob1, hob1, rfl⟩
              · exact obj_modI (fun J _ => (Chg.close (W := W) J w.obj hc).objs) hob1
            have h5 := hp'.schedule hW' hob2
            rw [ht2, ht1] at h5
            have h6 : Full env.defs ws' (a0 + W.R ob.task.id) (e'.schedule w.inst w.obj) := h5.full hst'
            exact h6.mono ha
          | err _ => cases hag
          | panic _ => cases hag
      · right
        have h5 := hp'.handleResult (env := env) (o := w.obj) hst' hI' hW' ob.task td.name (r := r) (by simpa using hag)
        refine ⟨_, ?_, h5⟩
        rw [hd']
        unfold succs
        omega
    · -- a flow was started
      have hnc : closed ob.status = false := by
        cases hc : closed ob.status with
        | false => rfl
        | true =>
          exfalso
          apply hres
          refine ⟨w.inst, w.obj, ob.task, e', r, ob, ⟨⟨w, hn, rfl, rfl, hout⟩, by rw [hob]; rfl⟩, hob, ?_, ?_⟩
          · rcases closed_cases hc with h1 | h1 | h1 | h1
            · exact .inl h1
            · unfold Spec.outcome at hout
              rw [hob0] at hout
              dsimp only at hout
              rw [htd] at hout
              simp [h1] at hout
            · unfold Spec.outcome at hout
              rw [hob0] at hout
              dsimp only at hout
              rw [htd] at hout
              simp [h1] at hout
            · exact .inr h1
          · rw [step_next hn, hex, GraphM.handleResult_len, hlen']
            have : (afterPop env e w).insts.length = e.insts.length := rfl
            omega
      have hg := hg hnc
      unfold Grown at hg
      have hwait : GraphM.waits r = true := by
        cases hw : GraphM.waits r with
        | true => rfl
        | false => rw [hw] at hg; simp at hg; omega
      rw [hwait, if_pos rfl] at hg
      have hone : e1.insts.length - (afterPop env e w).insts.length = 1 := by omega
      rw [hone, Nat.one_mul] at hp1
      have hr : r = .res .wait := by
        cases r with
        | res r => cases r <;> simp [GraphM.waits] at hwait ⊢
        | err _ => cases hwait
        | panic _ => cases hwait
      subst hr
      right
      have hcred : cred W ob1 = W.C ob.task.id := by unfold cred; rw [hs1, hnc, ht1]; rfl
      have hIo1 : I1.objs[w.obj]? = some ob1 := by rw [obj?_eq hI1] at hob1; exact hob1
      have hfin : ∃ a', a' + W.C ob.task.id ≤ a0 + W.C ob.task.id ∧ Pot env.defs ws' a' (e'.setStatus w.inst w.obj .waiting) := by
        rcases hcl with rfl | ⟨st, hc, rfl⟩
        · have h6 := close_free (W := W) hIo1 (s := .waiting) rfl
          rw [hcred] at h6
          exact hp1.free (f := fun I => I.setTaskStatus w.obj .waiting) hI1 hW' (.close I1 w.obj rfl) h6
        · have h6 := close_free (W := W) hIo1 hc
          rw [hcred] at h6
          obtain ⟨a', h7, h8⟩ := hp1.free (f := fun I => I.setTaskStatus w.obj st) hI1 hW' (.close I1 w.obj hc) h6
          exact ⟨a', h7, h8.status _ _ rfl⟩
      obtain ⟨a', h7, h8⟩ := hfin
      exact ⟨a', by omega, h8.full hst'⟩

theorem Full.enter {x : TaskEntry} {xs : List TaskEntry} {rest : List Frame} {b : Nat} (h : Pot defs ws b e) (hW : ws[e.cur]? = some W) :
    ∃ a', a' < b + (1 + (W.E x.task.id + entSum W xs)) + stackSum W rest ∧ Full defs ws a' (e.enterEntry env x xs rest) := by
  have hsum : ∀ st : List Frame, stackSum W (.enter xs :: st) = 1 + entSum W xs + stackSum W st := by
    intro st
    simp only [stackSum, List.map_cons, List.sum_cons, framePot]
  have hlt : e.cur < e.insts.length := by rw [← h.inv.len]; exact (List.getElem?_eq_some_iff.mp hW).1
  have hI : e.insts[e.cur]? = some e.insts[e.cur] := List.getElem?_eq_getElem hlt
  revert hI
  generalize e.insts[e.cur] = I
  intro hI
  obtain ⟨h1, ob, h2, h3⟩ := h.enter hI hW x.task
  have hfit := h.inv.fits _ I W hI hW
  have hE := hfit.E x.task.id
  have hR := hfit.R x.task.id
  unfold Eng.enterEntry
  rw [hI]
  dsimp only
  split
  · refine ⟨_, ?_, b + W.C x.task.id, h1.congr rfl rfl, .inr ⟨W, hW, Nat.le_refl _⟩⟩
    rw [hsum]; omega
  · split
    · have h4 := h1.schedule hW h2
      rw [h3] at h4
      refine ⟨_, ?_, _, h4.congr rfl rfl, .inr ⟨W, hW, Nat.le_refl _⟩⟩
      show _ + stackSum W (.enter xs :: rest) < _
      rw [hsum]; omega
    · refine ⟨_, ?_, b + W.C x.task.id, h1.congr rfl rfl, .inr ⟨W, hW, Nat.le_refl _⟩⟩
      show _ + stackSum W rest < _
      omega
  · have h4 : (e.modI e.cur (fun _ => (I.enterTask x.task).1)).insts[e.cur]? = some (I.enterTask x.task).1 := modI_self hI _
    have h5 : (I.enterTask x.task).1.objs[(I.enterTask x.task).2.1]? = some ob := by rw [obj?_eq h4] at h2; exact h2
    have hd := (enterTask_chg (W := W) I x.task (h.inv.tab _ I hI)).1.defn
    refine ⟨_, ?_, h1.taskSkipped h4 hW h5 (.enter xs :: rest)⟩
    rw [hsum, hd, h3]
    unfold succs
    omega

/-- Every step lowers the potential unless nothing is left to do, a loop goes round or a called flow is started once more. -/
theorem Full.step (h : Full env.defs ws a e) (hr : ¬ NothingLeft env e) (hres : ¬ Restarts env e) :
    ∃ ws', (loopsBack env e = true ∧ Full env.defs ws' a (e.step env)) ∨ ∃ a', a' < a ∧ Full env.defs ws' a' (e.step env) := by
  obtain ⟨b, hp, hb⟩ := h
  by_cases hs : e.stack = []
  · cases hn : next env e with
    | none => exact absurd ⟨hs, hn⟩ hr
    | some w =>
      have hb' : b ≤ a := by
        rcases hb with ⟨_, h1⟩ | ⟨W, _, h1⟩ <;> omega
      obtain ⟨ws', _, h1⟩ := (hp.mono hb').exec hn hres
      exact ⟨ws', h1⟩
  · obtain ⟨W, hW, hle⟩ : ∃ W, ws[e.cur]? = some W ∧ b + stackSum W e.stack ≤ a := by
      rcases hb with ⟨h1, _⟩ | h1
      · exact absurd h1 hs
      · exact h1
    refine ⟨ws, .inr ?_⟩
    unfold Eng.step
    cases hst : e.stack with
    | nil => exact absurd hst hs
    | cons fr rest =>
      rw [hst] at hle
      simp only [stackSum, List.map_cons, List.sum_cons] at hle
      cases fr with
      | enter es =>
        cases es with
        | nil =>
          simp only [framePot] at hle
          refine ⟨_, ?_, b, hp.congr rfl rfl, .inr ⟨W, hW, Nat.le_refl _⟩⟩
          simp only [stackSum]
          omega
        | cons x xs =>
          simp only [framePot, entSum_cons] at hle
          obtain ⟨a', h1, h2⟩ := Full.enter (env := env) (x := x) (xs := xs) (rest := rest) hp hW
          simp only [stackSum] at h1
          exact ⟨a', by omega, h2⟩
      | release t =>
        simp only [framePot] at hle
        have h1 := hp.modI (c := 0) (i := e.cur) (f := fun I => I.release t) fun I U _ _ => Chg.release I t
        refine ⟨_, ?_, b, h1.congr rfl rfl, .inr ⟨W, hW, Nat.le_refl _⟩⟩
        simp only [stackSum]
        omega

end Flow.Bnd
