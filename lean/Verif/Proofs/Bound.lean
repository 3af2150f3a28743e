import Verif.Spec.Bound
import Verif.Proofs.Step
import Verif.Proofs.EngOK
import Verif.Proofs.Local
import Verif.Proofs.Behavior
import Verif.Proofs.GraphRows

/-
A potential that every step of an execution decreases (C97). The successors of a task are paid for by the task itself, a called flow
by the task that calls it, the error handler by the flow instance, and the work item of the calling task by every task of the called
flow. So nothing depends on the order of the links or on how often a flow reports its end.
-/

namespace Flow.Bnd
open Spec Eng

/-- What the parts of a flow instance may cost: an entry for a task, a work item of a task, the flow called by a task, the error
handler, and the work item of the task that called the flow. -/
structure Wt where
  E : TaskId → Nat
  R : TaskId → Nat
  C : TaskId → Nat
  H : Nat
  r : Nat

def outOf (d : Def) (t : TaskId) : List LinkDef := (allLinks d).filter (fun l => l.src = t)

def entSum (W : Wt) (es : List TaskEntry) : Nat := (es.map (fun x => W.E x.task.id)).sum

/-- The costs of a flow that is started. -/
def total (d : Def) (W : Wt) : Nat := W.H + entSum W (Inst.startEntries d false)

inductive Fits (defs : String → Except Err (Option Def)) : Def → Wt → Prop
  | mk {d : Def} {W : Wt} (sub : TaskRef → Def → Wt)
      (hR : ∀ t, W.r + 3 + ((outOf d t).map (fun l => W.E l.dst)).sum ≤ W.R t)
      (hE : ∀ t, 1 + W.R t + W.C t ≤ W.E t)
      (hH : 1 + entSum W (Inst.startEntries d true) ≤ W.H)
      (hfit : ∀ t td uri d', d.task? t = some td → td.act = .subflow uri → defs uri = .ok (some d') → Fits defs d' (sub t d'))
      (hr : ∀ t td uri d', d.task? t = some td → td.act = .subflow uri → defs uri = .ok (some d') → W.R t.id ≤ (sub t d').r)
      (hC : ∀ t td uri d', d.task? t = some td → td.act = .subflow uri → defs uri = .ok (some d') → total d' (sub t d') ≤ W.C t.id) :
      Fits defs d W

/-- Has the evaluation of the task object begun? -/
def closed : TaskStatus → Bool
  | .waiting => true
  | .done => true
  | .skipped => true
  | .failed => true
  | _ => false

def cred (W : Wt) (ob : Obj) : Nat := if closed ob.status then 0 else W.C ob.task.id

def credSum (W : Wt) (l : List Obj) : Nat := (l.map (cred W)).sum

def instPot (W : Wt) (I : Inst) : Nat := credSum W I.objs + (if I.handling then 0 else W.H)

def sumI : List Wt → List Inst → Nat
  | W :: ws, I :: is => instPot W I + sumI ws is
  | _, _ => 0

def item (ws : List Wt) (e : Eng) (w : WorkItem) : Nat :=
  match ws[w.inst]?, e.obj? w.inst w.obj with
  | some W, some ob => W.R ob.task.id
  | _, _ => 1

def queuePot (ws : List Wt) (e : Eng) : Nat := (e.queue.map (item ws e)).sum

def framePot (W : Wt) : Frame → Nat
  | .enter es => 1 + entSum W es
  | .release _ => 1

def stackPot (ws : List Wt) (e : Eng) : Nat :=
  match ws[e.cur]? with
  | some W => (e.stack.map (framePot W)).sum
  | none => 0

/-- The table of tasks leads to objects of these tasks. -/
def TabOK (I : Inst) : Prop := ∀ k o, I.tasks.get? k = some o → ∃ ob, I.objs[o]? = some ob ∧ ob.task.id = k

structure Inv (defs : String → Except Err (Option Def)) (ws : List Wt) (e : Eng) : Prop where
  len : ws.length = e.insts.length
  fits : ∀ (i : Nat) (I : Inst) W, e.insts[i]? = some I → ws[i]? = some W → Fits defs I.defn W
  tab : ∀ (i : Nat) (I : Inst), e.insts[i]? = some I → TabOK I
  host : ∀ (i : Nat) (I : Inst) W hi ho, e.insts[i]? = some I → ws[i]? = some W → I.host = some (hi, ho) →
    ∃ V ob, ws[hi]? = some V ∧ e.obj? hi ho = some ob ∧ V.R ob.task.id ≤ W.r
  queue : ∀ w ∈ e.queue, ∃ ob, e.obj? w.inst w.obj = some ob

/-- The invariant holds and the flow instances and the work queue cost at most `a`. -/
structure Pot (defs : String → Except Err (Option Def)) (ws : List Wt) (a : Nat) (e : Eng) : Prop where
  inv : Inv defs ws e
  le : sumI ws e.insts + queuePot ws e ≤ a

variable {env : Env} {defs : String → Except Err (Option Def)} {ws : List Wt} {e : Eng} {a : Nat}

/-! ### Sums -/

theorem sum_map_le {α : Type} {f g : α → Nat} {l : List α} (h : ∀ x ∈ l, f x ≤ g x) : (l.map f).sum ≤ (l.map g).sum := by
  induction l with
  | nil => exact Nat.le_refl _
  | cons x xs ih =>
    simp only [List.map_cons, List.sum_cons]
    have := h x List.mem_cons_self
    have := ih fun y hy => h y (List.mem_cons_of_mem _ hy)
    omega

theorem sum_sublist {l l' : List Nat} (h : l.Sublist l') : l.sum ≤ l'.sum := by
  induction h with
  | slnil => exact Nat.le_refl _
  | cons _ _ ih => simp only [List.sum_cons]; omega
  | cons_cons _ _ ih => simp only [List.sum_cons]; omega

theorem sum_perm {l l' : List Nat} (h : l.Perm l') : l.sum = l'.sum := by
  induction h with
  | nil => rfl
  | cons _ _ ih => simp only [List.sum_cons]; omega
  | swap _ _ _ => simp only [List.sum_cons]; omega
  | trans _ _ ih1 ih2 => omega

theorem credSum_modify {W : Wt} {l : List Obj} {o : Nat} {ob : Obj} (h : l[o]? = some ob) (f : Obj → Obj) :
    credSum W (l.modify o f) + cred W ob = credSum W l + cred W (f ob) := by
  induction l generalizing o with
  | nil => simp at h
  | cons x xs ih =>
    cases o with
    | zero =>
      simp only [List.getElem?_cons_zero, Option.some.injEq] at h
      subst h
      simp only [List.modify_zero_cons, credSum, List.map_cons, List.sum_cons]
      omega
    | succ o =>
      simp only [List.getElem?_cons_succ] at h
      have := ih h
      simp only [List.modify_succ_cons, credSum, List.map_cons, List.sum_cons] at this ⊢
      omega

theorem modify_none {α : Type} {l : List α} {o : Nat} (h : l[o]? = none) (f : α → α) : l.modify o f = l := by
  rw [List.modify_eq_self]
  exact List.getElem?_eq_none_iff.mp h

theorem sumI_modify {is : List Inst} {i : Nat} {I : Inst} {W : Wt} (hi : is[i]? = some I) (hw : ws[i]? = some W) (f : Inst → Inst) :
    sumI ws (is.modify i f) + instPot W I = sumI ws is + instPot W (f I) := by
  induction ws generalizing is i with
  | nil => simp at hw
  | cons V vs ih =>
    cases is with
    | nil => simp at hi
    | cons J js =>
      cases i with
      | zero =>
        simp only [List.getElem?_cons_zero, Option.some.injEq] at hi hw
        subst hi; subst hw
        simp only [List.modify_zero_cons, sumI]
        omega
      | succ i =>
        simp only [List.getElem?_cons_succ] at hi hw
        have := ih hi hw
        simp only [List.modify_succ_cons, sumI] at this ⊢
        omega

theorem sumI_append {is : List Inst} (h : ws.length = is.length) (W : Wt) (I : Inst) :
    sumI (ws ++ [W]) (is ++ [I]) = sumI ws is + instPot W I := by
  induction ws generalizing is with
  | nil =>
    cases is with
    | nil => simp [sumI]
    | cons _ _ => simp at h
  | cons V vs ih =>
    cases is with
    | nil => simp at h
    | cons J js =>
      simp only [List.length_cons, Nat.add_right_cancel_iff] at h
      simp only [List.cons_append, sumI, ih h]
      omega

/-! ### Elementary changes -/

/-- A change of a flow instance that costs at most `c`. -/
structure Chg (W : Wt) (c : Nat) (I I' : Inst) : Prop where
  defn : I'.defn = I.defn
  host : I'.host = I.host
  objs : ∀ (p : Nat) ob, I.objs[p]? = some ob → ∃ ob', I'.objs[p]? = some ob' ∧ ob'.task = ob.task
  tab : TabOK I → TabOK I'
  pot : instPot W I' ≤ instPot W I + c

theorem Chg.refl (W : Wt) (I : Inst) : Chg W 0 I I := ⟨rfl, rfl, fun _ ob h => ⟨ob, h, rfl⟩, fun h => h, Nat.le_refl _⟩

theorem Chg.trans {W : Wt} {c c' : Nat} {I J K : Inst} (h : Chg W c I J) (g : Chg W c' J K) : Chg W (c + c') I K := by
  refine ⟨g.defn.trans h.defn, g.host.trans h.host, fun p ob hp => ?_, fun ht => g.tab (h.tab ht), ?_⟩
  · obtain ⟨ob1, h1, h2⟩ := h.objs p ob hp
    obtain ⟨ob2, h3, h4⟩ := g.objs p ob1 h1
    exact ⟨ob2, h3, h4.trans h2⟩
  · have := h.pot; have := g.pot; omega

theorem Chg.mono {W : Wt} {c c' : Nat} {I J : Inst} (h : Chg W c I J) (hc : c ≤ c') : Chg W c' I J :=
  ⟨h.defn, h.host, h.objs, h.tab, by have := h.pot; omega⟩

/-- Changes that do not touch the task objects. -/
theorem Chg.plain {W : Wt} {I I' : Inst} (h1 : I'.defn = I.defn) (h2 : I'.host = I.host) (h3 : I'.objs = I.objs) (h4 : TabOK I → TabOK I')
    (h5 : I'.handling = I.handling ∨ I'.handling = true) : Chg W 0 I I' := by
  refine ⟨h1, h2, fun p ob hp => ⟨ob, by rw [h3]; exact hp, rfl⟩, h4, ?_⟩
  unfold instPot
  rw [h3]
  rcases h5 with h5 | h5 <;> rw [h5]
  · exact Nat.le_refl _
  · rw [if_pos rfl]; omega

theorem TabOK.same {I I' : Inst} (h1 : I'.tasks = I.tasks) (h2 : I'.objs = I.objs) (h : TabOK I) : TabOK I' := by
  intro k o hk
  rw [h1] at hk
  rw [h2]
  exact h k o hk

theorem Chg.quiet {W : Wt} {I I' : Inst} (h1 : I'.defn = I.defn) (h2 : I'.host = I.host) (h3 : I'.objs = I.objs) (h4 : I'.tasks = I.tasks)
    (h5 : I'.handling = I.handling) : Chg W 0 I I' := .plain h1 h2 h3 (TabOK.same h4 h3) (.inl h5)

theorem tab_modO {I I' : Inst} {o : Nat} {f : Obj → Obj} (h1 : I'.tasks = I.tasks) (h2 : I'.objs = I.objs.modify o f)
    (hf : ∀ x, (f x).task = x.task) (h : TabOK I) : TabOK I' := by
  intro k p hk
  rw [h1] at hk
  obtain ⟨ob, h3, h4⟩ := h k p hk
  rw [h2, List.getElem?_modify, h3]
  by_cases hp : o = p
  · exact ⟨f ob, by simp [hp], by rw [hf]; exact h4⟩
  · exact ⟨ob, by simp [hp], h4⟩

theorem objs_modO {l : List Obj} {o : Nat} {f : Obj → Obj} (hf : ∀ x, (f x).task = x.task) (p : Nat) (ob : Obj) (h : l[p]? = some ob) :
    ∃ ob', (l.modify o f)[p]? = some ob' ∧ ob'.task = ob.task := by
  rw [List.getElem?_modify, h]
  by_cases hp : o = p
  · exact ⟨f ob, by simp [hp], hf ob⟩
  · exact ⟨ob, by simp [hp], rfl⟩

/-- The status of a task object is set; what it costs is `c`. -/
theorem Chg.status {W : Wt} {c : Nat} (I : Inst) (o : Nat) (s : TaskStatus)
    (h : ∀ ob, I.objs[o]? = some ob → cred W { ob with status := s } ≤ cred W ob + c) : Chg W c I (I.setTaskStatus o s) := by
  unfold Inst.setTaskStatus
  split
  · exact (Chg.refl W I).mono (Nat.zero_le _)
  · rename_i ob hob
    refine ⟨rfl, rfl, objs_modO (fun _ => rfl), tab_modO (o := o) (f := fun x => { x with status := s }) rfl rfl (fun _ => rfl), ?_⟩
    have := credSum_modify (W := W) hob (fun x => { x with status := s })
    have := h ob hob
    unfold instPot
    dsimp only at *
    omega

theorem Chg.close {W : Wt} (I : Inst) (o : Nat) {s : TaskStatus} (hs : closed s = true) : Chg W 0 I (I.setTaskStatus o s) :=
  .status I o s fun ob _ => by unfold cred; rw [if_pos hs]; exact Nat.zero_le _

/-- If the evaluation of the task object had not begun, its credit becomes free. -/
theorem close_free {W : Wt} {I : Inst} {o : Nat} {ob : Obj} (ho : I.objs[o]? = some ob) {s : TaskStatus} (hs : closed s = true) :
    instPot W (I.setTaskStatus o s) + cred W ob ≤ instPot W I := by
  unfold Inst.setTaskStatus
  rw [ho]
  have := credSum_modify (W := W) ho (fun x => { x with status := s })
  have h0 : cred W { ob with status := s } = 0 := by unfold cred; rw [if_pos hs]
  unfold instPot
  dsimp only at *
  omega

/-! ### Changes of the engine -/

theorem obj_modI {i : Nat} {f : Inst → Inst} {j o : Nat} {ob : Obj}
    (hf : ∀ I, e.insts[i]? = some I → ∀ (p : Nat) ob, I.objs[p]? = some ob → ∃ ob', (f I).objs[p]? = some ob' ∧ ob'.task = ob.task)
    (h : e.obj? j o = some ob) : ∃ ob', (e.modI i f).obj? j o = some ob' ∧ ob'.task = ob.task := by
  obtain ⟨J, hJ, hob⟩ := obj?_some h
  by_cases hij : i = j
  · subst hij
    obtain ⟨ob', h1, h2⟩ := hf J hJ o ob hob
    exact ⟨ob', by rw [obj?_eq (modI_self hJ f)]; exact h1, h2⟩
  · exact ⟨ob, by rw [obj?_eq ((modI_ne hij f).trans hJ)]; exact hob, rfl⟩

theorem item_eq {e' : Eng} {w : WorkItem} {ob ob' : Obj} (h : e.obj? w.inst w.obj = some ob) (h' : e'.obj? w.inst w.obj = some ob')
    (ht : ob'.task = ob.task) : item ws e' w = item ws e w := by
  unfold item
  rw [h, h']
  cases ws[w.inst]? with
  | none => rfl
  | some W => dsimp only; rw [ht]

theorem Pot.mono {a' : Nat} (h : Pot defs ws a e) (ha : a ≤ a') : Pot defs ws a' e := ⟨h.inv, Nat.le_trans h.le ha⟩

theorem Pot.self (h : Inv defs ws e) : Pot defs ws (sumI ws e.insts + queuePot ws e) e := ⟨h, Nat.le_refl _⟩

theorem Pot.congr {e' : Eng} (h : Pot defs ws a e) (hi : e'.insts = e.insts) (hq : e'.queue = e.queue) : Pot defs ws a e' := by
  have ho : ∀ j o, e'.obj? j o = e.obj? j o := fun j o => by unfold Eng.obj?; rw [hi]
  refine ⟨⟨by rw [hi]; exact h.inv.len, fun i I W h1 h2 => h.inv.fits i I W (hi ▸ h1) h2, fun i I h1 => h.inv.tab i I (hi ▸ h1),
    fun i I W a b h1 h2 h3 => ?_, fun w hw => ?_⟩, ?_⟩
  · rw [ho]; exact h.inv.host i I W a b (hi ▸ h1) h2 h3
  · rw [ho]; exact h.inv.queue w (hq ▸ hw)
  · have : queuePot ws e' = queuePot ws e := by
      unfold queuePot
      rw [hq]
      congr 1
      apply List.map_congr_left
      intro w _
      unfold item
      rw [ho]
    rw [hi, this]
    exact h.le

theorem Pot.modI {c i : Nat} {f : Inst → Inst} (h : Pot defs ws a e)
    (hf : ∀ I W, e.insts[i]? = some I → ws[i]? = some W → Chg W c I (f I)) : Pot defs ws (a + c) (e.modI i f) := by
  cases hI : e.insts[i]? with
  | none =>
    have he : (e.modI i f).insts = e.insts := by
      show e.insts.modify i f = _
      exact modify_none hI f
    exact (h.congr he rfl).mono (Nat.le_add_right _ _)
  | some I =>
    have hlt : i < ws.length := by rw [h.inv.len]; exact List.getElem?_eq_some_iff.mp hI |>.1
    obtain ⟨W, hW⟩ : ∃ W, ws[i]? = some W := ⟨_, List.getElem?_eq_getElem hlt⟩
    have hc := hf I W hI hW
    have ho : ∀ I', e.insts[i]? = some I' → ∀ (p : Nat) ob, I'.objs[p]? = some ob → ∃ ob', (f I').objs[p]? = some ob' ∧ ob'.task = ob.task := by
      intro I' hI'
      rw [hI] at hI'; cases hI'
      exact hc.objs
    refine ⟨⟨by simp [h.inv.len], fun j J V h1 h2 => ?_, fun j J h1 => ?_, fun j J V x y h1 h2 h3 => ?_, fun w hw => ?_⟩, ?_⟩
    · by_cases hij : i = j
      · subst hij
        rw [modI_self hI] at h1; cases h1
        rw [hc.defn]
        exact h.inv.fits i I V hI h2
      · rw [modI_ne hij] at h1
        exact h.inv.fits j J V h1 h2
    · by_cases hij : i = j
      · subst hij
        rw [modI_self hI] at h1; cases h1
        exact hc.tab (h.inv.tab i I hI)
      · rw [modI_ne hij] at h1
        exact h.inv.tab j J h1
    · have : ∃ J0 : Inst, e.insts[j]? = some J0 ∧ J0.host = some (x, y) := by
        by_cases hij : i = j
        · subst hij
          rw [modI_self hI] at h1; cases h1
          exact ⟨I, hI, by rw [← hc.host]; exact h3⟩
        · rw [modI_ne hij] at h1
          exact ⟨J, h1, h3⟩
      obtain ⟨J0, h4, h5⟩ := this
      obtain ⟨V', ob, h6, h7, h8⟩ := h.inv.host j J0 V x y h4 h2 h5
      obtain ⟨ob', h9, h10⟩ := obj_modI ho h7
      exact ⟨V', ob', h6, h9, by rw [h10]; exact h8⟩
    · obtain ⟨ob, h1⟩ := h.inv.queue w hw
      obtain ⟨ob', h2, _⟩ := obj_modI ho h1
      exact ⟨ob', h2⟩
    · have hs := sumI_modify hI hW f
      have hq : queuePot ws (e.modI i f) = queuePot ws e := by
        unfold queuePot
        congr 1
        apply List.map_congr_left
        intro w hw
        obtain ⟨ob, h1⟩ := h.inv.queue w hw
        obtain ⟨ob', h2, h3⟩ := obj_modI ho h1
        exact item_eq h1 h2 h3
      have := h.le
      have := hc.pot
      rw [hq]
      show sumI ws (e.insts.modify i f) + _ ≤ _
      omega

theorem Pot.schedule {i o : Nat} {W : Wt} {ob : Obj} (h : Pot defs ws a e) (hw : ws[i]? = some W) (ho : e.obj? i o = some ob) :
    Pot defs ws (a + W.R ob.task.id) (e.schedule i o) := by
  have ho' : ∀ j p, (e.schedule i o).obj? j p = e.obj? j p := fun _ _ => rfl
  refine ⟨⟨h.inv.len, h.inv.fits, h.inv.tab, h.inv.host, fun w hw' => ?_⟩, ?_⟩
  · rcases List.mem_append.mp hw' with h1 | h1
    · exact h.inv.queue w h1
    · rw [List.mem_singleton] at h1; subst h1; exact ⟨ob, ho⟩
  · have : queuePot ws (e.schedule i o) = queuePot ws e + W.R ob.task.id := by
      unfold queuePot Eng.schedule
      simp only [List.map_append, List.map_cons, List.map_nil, List.sum_append, List.sum_cons, List.sum_nil]
      have h1 : item ws (e.schedule i o) ⟨e.wiCounter + 1, i, o⟩ = W.R ob.task.id := by
        unfold item
        dsimp only
        rw [hw, ho', ho]
      have h2 : (e.queue.map (item ws (e.schedule i o))).sum = (e.queue.map (item ws e)).sum := rfl
      unfold Eng.schedule at h1 h2
      rw [h1, h2]
      omega
    rw [this]
    have := h.le
    show sumI ws e.insts + _ ≤ _
    omega

/-- A prefix. -/
def Grows (ws ws' : List Wt) : Prop := ∃ vs, ws' = ws ++ vs

theorem Grows.get {ws ws' : List Wt} (h : Grows ws ws') {i : Nat} {W : Wt} (hw : ws[i]? = some W) : ws'[i]? = some W := by
  obtain ⟨vs, rfl⟩ := h
  rw [List.getElem?_append_left (List.getElem?_eq_some_iff.mp hw).1]
  exact hw

theorem Grows.refl (ws : List Wt) : Grows ws ws := ⟨[], (List.append_nil _).symm⟩

theorem Grows.trans {a b c : List Wt} (h : Grows a b) (g : Grows b c) : Grows a c := by
  obtain ⟨x, rfl⟩ := h
  obtain ⟨y, rfl⟩ := g
  exact ⟨x ++ y, by rw [List.append_assoc]⟩

theorem obj_newEmbedded {i o j p : Nat} {uri : String} {d : Def} {ob : Obj} (h : e.obj? j p = some ob) :
    (e.newEmbedded i o uri d).obj? j p = some ob := by
  obtain ⟨J, hJ, hob⟩ := obj?_some h
  rw [obj?_eq ((newEmbedded_getElem? e i o uri d (lt_of_obj? h)).trans hJ)]
  exact hob

theorem Pot.newEmbedded {i o : Nat} {uri : String} {d : Def} {W V : Wt} {ob : Obj} (h : Pot defs ws a e) (hw : ws[i]? = some W)
    (ho : e.obj? i o = some ob) (hf : Fits defs d V) (hr : W.R ob.task.id ≤ V.r) :
    Pot defs (ws ++ [V]) (a + V.H) (e.newEmbedded i o uri d) := by
  have hg : Grows ws (ws ++ [V]) := ⟨[V], rfl⟩
  have hnew : ∀ (j : Nat) (J : Inst) (U : Wt), (e.newEmbedded i o uri d).insts[j]? = some J → (ws ++ [V])[j]? = some U →
      (e.insts[j]? = some J ∧ ws[j]? = some U) ∨ (J = { defn := d, uri := uri, subflowId := e.subflowCtr + 1, host := some (i, o) } ∧ U = V) := by
    intro j J U h1 h2
    by_cases hj : j < e.insts.length
    · rw [newEmbedded_getElem? _ _ _ _ _ hj] at h1
      rw [List.getElem?_append_left (by rw [h.inv.len]; exact hj)] at h2
      exact .inl ⟨h1, h2⟩
    · have hj' : j = e.insts.length := by
        have := (List.getElem?_eq_some_iff.mp h1).1
        simp at this
        omega
      subst hj'
      rw [newEmbedded_new] at h1
      rw [← h.inv.len, List.getElem?_append_right (Nat.le_refl _), Nat.sub_self] at h2
      cases h1; cases h2
      exact .inr ⟨rfl, rfl⟩
  have hlen : (ws ++ [V]).length = (e.newEmbedded i o uri d).insts.length := by simp [h.inv.len]
  have hU : ∀ (j : Nat) (J : Inst), (e.newEmbedded i o uri d).insts[j]? = some J → ∃ U, (ws ++ [V])[j]? = some U := by
    intro j J h1
    have : j < (ws ++ [V]).length := by rw [hlen]; exact (List.getElem?_eq_some_iff.mp h1).1
    exact ⟨_, List.getElem?_eq_getElem this⟩
  refine ⟨⟨hlen, fun j J U h1 h2 => ?_, fun j J h1 => ?_, fun j J U x y h1 h2 h3 => ?_, fun w hw' => ?_⟩, ?_⟩
  · rcases hnew j J U h1 h2 with ⟨h3, h4⟩ | ⟨rfl, rfl⟩
    · exact h.inv.fits j J U h3 h4
    · exact hf
  · obtain ⟨U, h2⟩ := hU j J h1
    rcases hnew j J U h1 h2 with ⟨h3, h4⟩ | ⟨rfl, rfl⟩
    · exact h.inv.tab j J h3
    · intro k p hk; cases hk
  · rcases hnew j J U h1 h2 with ⟨h4, h5⟩ | ⟨rfl, rfl⟩
    · obtain ⟨V', ob', h6, h7, h8⟩ := h.inv.host j J U x y h4 h5 h3
      exact ⟨V', ob', hg.get h6, obj_newEmbedded h7, h8⟩
    · cases h3
      exact ⟨W, ob, hg.get hw, obj_newEmbedded ho, hr⟩
  · obtain ⟨ob', h1⟩ := h.inv.queue w hw'
    exact ⟨ob', obj_newEmbedded h1⟩
  · have hq : queuePot (ws ++ [V]) (e.newEmbedded i o uri d) = queuePot ws e := by
      unfold queuePot
      congr 1
      apply List.map_congr_left
      intro w hw'
      obtain ⟨ob', h1⟩ := h.inv.queue w hw'
      have hlt := lt_of_obj? h1
      unfold item
      rw [h1, obj_newEmbedded h1, List.getElem?_append_left (by rw [h.inv.len]; exact hlt)]
    have hs : sumI (ws ++ [V]) (e.newEmbedded i o uri d).insts = sumI ws e.insts + V.H := by
      unfold Eng.newEmbedded
      rw [sumI_append h.inv.len]
      simp [instPot, credSum]
    have := h.le
    omega

/-! ### Changes by the behaviors -/

/-- Nothing changes that matters here. -/
structure Quiet (I I' : Inst) : Prop where
  defn : I'.defn = I.defn
  host : I'.host = I.host
  objs : I'.objs = I.objs
  tasks : I'.tasks = I.tasks
  handling : I'.handling = I.handling

theorem Quiet.refl (I : Inst) : Quiet I I := ⟨rfl, rfl, rfl, rfl, rfl⟩

theorem Quiet.trans {I J K : Inst} (h : Quiet I J) (g : Quiet J K) : Quiet I K :=
  ⟨g.defn.trans h.defn, g.host.trans h.host, g.objs.trans h.objs, g.tasks.trans h.tasks, g.handling.trans h.handling⟩

theorem Quiet.chg {W : Wt} {I J : Inst} (h : Quiet I J) : Chg W 0 I J := .quiet h.defn h.host h.objs h.tasks h.handling

theorem Quiet.findLinks (ls : List LinkDef) : ∀ I : Inst, Quiet I (I.findLinks ls) := by
  unfold Inst.findLinks
  induction ls with
  | nil => exact Quiet.refl
  | cons l ls ih =>
    intro I
    refine Quiet.trans ?_ (ih (I.findLink l.id))
    unfold Inst.findLink
    split <;> exact ⟨rfl, rfl, rfl, rfl, rfl⟩

theorem Quiet.applyRows (rs : List (LinkDef × LinkStatus × Nat)) : ∀ I : Inst, Quiet I (I.applyRows rs) := by
  unfold Inst.applyRows
  induction rs with
  | nil => exact Quiet.refl
  | cons r rs ih =>
    intro I
    exact Quiet.trans (J := I.setLink r.1.id r.2.1) ⟨rfl, rfl, rfl, rfl, rfl⟩ (ih _)

theorem release_facts (I : Inst) (t : TaskRef) : (I.release t).objs = I.objs ∧ (I.release t).tasks = I.tasks.del t.id ∧
    (I.release t).defn = I.defn ∧ (I.release t).host = I.host ∧ (I.release t).handling = I.handling := by
  unfold Inst.release
  generalize I.defn.fromLinks t = ls
  have : ∀ (ls : List LinkDef) (J : Inst), (ls.foldl (fun J l => { J with links := J.links.del l.id, trace := .linkRemoved l.id :: J.trace }) J).objs = J.objs ∧
      (ls.foldl (fun J l => { J with links := J.links.del l.id, trace := .linkRemoved l.id :: J.trace }) J).tasks = J.tasks ∧
      (ls.foldl (fun J l => { J with links := J.links.del l.id, trace := .linkRemoved l.id :: J.trace }) J).defn = J.defn ∧
      (ls.foldl (fun J l => { J with links := J.links.del l.id, trace := .linkRemoved l.id :: J.trace }) J).host = J.host ∧
      (ls.foldl (fun J l => { J with links := J.links.del l.id, trace := .linkRemoved l.id :: J.trace }) J).handling = J.handling := by
    intro ls
    induction ls with
    | nil => intro J; exact ⟨rfl, rfl, rfl, rfl, rfl⟩
    | cons l ls ih => intro J; simp only [List.foldl_cons]; exact ih _
  exact this ls _

theorem Chg.release {W : Wt} (I : Inst) (t : TaskRef) : Chg W 0 I (I.release t) := by
  obtain ⟨h1, h2, h3, h4, h5⟩ := release_facts I t
  refine .plain h3 h4 h1 (fun h k o hk => ?_) (.inl h5)
  rw [h2, AMap.get?_del] at hk
  rw [h1]
  split at hk
  · cases hk
  · exact h k o hk

/-- The status of one task object is changed, together with things that do not matter. -/
theorem Chg.modify {W : Wt} {c : Nat} {I I' : Inst} {o : Nat} {f : Obj → Obj} (h1 : I'.defn = I.defn) (h2 : I'.host = I.host)
    (h3 : I'.handling = I.handling) (h4 : I'.tasks = I.tasks) (h5 : I'.objs = I.objs.modify o f) (hf : ∀ x, (f x).task = x.task)
    (hc : ∀ ob, I.objs[o]? = some ob → cred W (f ob) ≤ cred W ob + c) : Chg W c I I' := by
  refine ⟨h1, h2, fun p ob hp => ?_, tab_modO h4 h5 hf, ?_⟩
  · rw [h5]; exact objs_modO hf p ob hp
  · unfold instPot
    rw [h3, h5]
    cases ho : I.objs[o]? with
    | none => rw [modify_none ho]; omega
    | some ob =>
      have := credSum_modify (W := W) ho f
      have := hc ob ho
      omega

theorem set_facts (I : Inst) (o : Nat) (s : TaskStatus) : (I.setTaskStatus o s).defn = I.defn ∧ (I.setTaskStatus o s).host = I.host ∧
    (I.setTaskStatus o s).handling = I.handling ∧ (I.setTaskStatus o s).tasks = I.tasks ∧
    (I.setTaskStatus o s).objs = I.objs.modify o (fun x => { x with status := s }) := by
  unfold Inst.setTaskStatus
  split
  · rename_i h; exact ⟨rfl, rfl, rfl, rfl, (modify_none h _).symm⟩
  · exact ⟨rfl, rfl, rfl, rfl, rfl⟩

def enters (I : Inst) (o : Nat) (ls : List LinkDef) : Option TaskStatus → Inst
  | none => (I.setTaskStatus o .entered).findLinks ls
  | some s => ((I.setTaskStatus o .entered).findLinks ls).setTaskStatus o s

theorem Chg.entered {W : Wt} {c : Nat} (I : Inst) (o : Nat) (ls : List LinkDef) (s : Option TaskStatus)
    (hc : ∀ ob, I.objs[o]? = some ob → W.C ob.task.id ≤ cred W ob + c) :
    Chg W c I (enters I o ls s) := by
  have hle : ∀ ob, cred W ob ≤ W.C ob.task.id := fun ob => by unfold cred; split <;> omega
  obtain ⟨a1, a2, a3, a4, a5⟩ := set_facts I o .entered
  have q := Quiet.findLinks ls (I.setTaskStatus o .entered)
  cases s with
  | none =>
    exact .modify (q.defn.trans a1) (q.host.trans a2) (q.handling.trans a3) (q.tasks.trans a4) (q.objs.trans a5) (fun _ => rfl)
      fun ob ho => Nat.le_trans (hle _) (hc ob ho)
  | some s =>
    obtain ⟨b1, b2, b3, b4, b5⟩ := set_facts ((I.setTaskStatus o .entered).findLinks ls) o s
    refine .modify (o := o) (f := fun x => { x with status := s }) (b1.trans (q.defn.trans a1)) (b2.trans (q.host.trans a2)) (b3.trans (q.handling.trans a3))
      (b4.trans (q.tasks.trans a4)) ?_ (fun _ => rfl) fun ob ho => Nat.le_trans (hle _) (hc ob ho)
    unfold enters
    rw [b5, q.objs, a5, List.modify_modify_eq]
    rfl

theorem enterTask_shape (I : Inst) (t : TaskRef) {ob : Obj} (h : (I.findOrCreateTask t).1.objs[(I.findOrCreateTask t).2]? = some ob) :
    (I.enterTask t).2.1 = (I.findOrCreateTask t).2 ∧
      ∃ ls s, (I.enterTask t).1 = enters (I.findOrCreateTask t).1 (I.findOrCreateTask t).2 ls s := by
  unfold Inst.enterTask
  dsimp only
  rw [h]
  dsimp only
  split
  · exact ⟨rfl, _, none, rfl⟩
  · exact ⟨rfl, _, some .ready, rfl⟩
  · exact ⟨rfl, _, some .skipped, rfl⟩

/-- Entering a task costs the flow that it may call, and yields an object of the task. -/
theorem enterTask_chg {W : Wt} (I : Inst) (t : TaskRef) (ht : TabOK I) :
    Chg W (W.C t.id) I (I.enterTask t).1 ∧ ∃ ob, (I.enterTask t).1.objs[(I.enterTask t).2.1]? = some ob ∧ ob.task.id = t.id := by
  obtain ⟨ob, c, c', h1, h2, h3, h4, h5⟩ : ∃ ob c c', (I.findOrCreateTask t).1.objs[(I.findOrCreateTask t).2]? = some ob ∧ ob.task.id = t.id ∧
      Chg W c I (I.findOrCreateTask t).1 ∧ W.C ob.task.id ≤ cred W ob + c' ∧ c + c' ≤ W.C t.id := by
    unfold Inst.findOrCreateTask
    split
    · rename_i o ho
      obtain ⟨ob, h1, h2⟩ := ht _ _ ho
      exact ⟨ob, 0, W.C t.id, h1, h2, Chg.refl W I, by rw [h2]; omega, by omega⟩
    · rename_i hn
      have hnew : (I.objs ++ [({ task := t } : Obj)])[I.objs.length]? = some { task := t } := by simp
      refine ⟨{ task := t }, W.C t.id, 0, hnew, rfl, ⟨rfl, rfl, fun p ob hp => ⟨ob, ?_, rfl⟩, fun h k o hk => ?_, ?_⟩, ?_, by omega⟩
      · exact (List.getElem?_append_left (List.getElem?_eq_some_iff.mp hp).1).trans hp
      · rw [AMap.get?_set] at hk
        split at hk
        · rename_i hkt
          cases hk
          exact ⟨_, hnew, by rw [hkt]⟩
        · obtain ⟨ob, h1, h2⟩ := h k o hk
          exact ⟨ob, (List.getElem?_append_left (List.getElem?_eq_some_iff.mp h1).1).trans h1, h2⟩
      · unfold instPot credSum
        simp only [List.map_append, List.map_cons, List.map_nil, List.sum_append, List.sum_cons, List.sum_nil]
        have : cred W { task := t } = W.C t.id := rfl
        omega
      · show W.C t.id ≤ W.C t.id + 0
        omega
  obtain ⟨h6, ls, s, h7⟩ := enterTask_shape I t h1
  have h8 := Chg.entered (W := W) (c := c') (I.findOrCreateTask t).1 (I.findOrCreateTask t).2 ls s
    (fun ob' ho' => by rw [h1] at ho'; cases ho'; exact h4)
  rw [← h7] at h8
  obtain ⟨ob', h9, h10⟩ := h8.objs _ ob h1
  exact ⟨(h3.trans h8).mono h5, ob', by rw [h6]; exact h9, by rw [h10]; exact h2⟩

theorem outOf_toLinks {d : Def} {W : Wt} (t : TaskRef) :
    ((d.toLinks t).map (fun l => W.E l.dst)).sum ≤ ((outOf d t.id).map (fun l => W.E l.dst)).sum := by
  refine sum_sublist (List.Sublist.map _ ?_)
  unfold Def.toLinks outOf allLinks Def.graph Graph.toLinks
  rw [List.filter_append]
  cases t.eh with
  | false => exact List.sublist_append_left _ _
  | true =>
    cases d.eh with
    | none => simp
    | some g => exact List.sublist_append_right _ _

theorem entSum_rows {W : Wt} {eh : Bool} {ls : List LinkDef} {rows : List (LinkDef × LinkStatus × Nat)} (h : rows.map (·.1) = ls) :
    entSum W (rowEntries eh rows) = (ls.map (fun l => W.E l.dst)).sum := by
  unfold entSum rowEntries
  rw [← h, List.map_map, List.map_map]
  rfl

theorem entSum_sorted {W : Wt} (es : List TaskEntry) : entSum W (sortEntries es) = entSum W es :=
  sum_perm ((sortEntries_perm es).map _)

end Flow.Bnd
