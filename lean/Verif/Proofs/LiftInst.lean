import Verif.Spec.Graph
import Verif.Proofs.CoverRun
import Verif.Proofs.Bare

/-
The error handler of a flow as a flow of its own: how states of that flow are states of the flow that handles an error.
Attributes are kept under other names, since a flow that handles an error does not store the error of a task under "_E".
-/

namespace Flow

open Spec

namespace Lift

/-! ### Names of attributes -/

/-- Names under which the engine itself stores data of tasks. -/
def kept (k : String) : Bool :=
  match k.toList with
  | '_' :: 'A' :: '.' :: _ => true
  | '_' :: 'E' :: '.' :: _ => true
  | _ => false

/-- The name under which the attribute is kept. -/
def rho (k : String) : String := if kept k then k else "_B." ++ k

theorem kept_b (k : String) : kept ("_B." ++ k) = false := by
  unfold kept
  rw [String.toList_append]
  rfl

theorem rho_a (t : String) : rho ("_A." ++ t) = "_A." ++ t := by
  have : kept ("_A." ++ t) = true := by unfold kept; rw [String.toList_append]; rfl
  unfold rho
  rw [this]; rfl

theorem rho_e (t : String) : rho ("_E." ++ t) = "_E." ++ t := by
  have : kept ("_E." ++ t) = true := by unfold kept; rw [String.toList_append]; rfl
  unfold rho
  rw [this]; rfl

theorem rho_inj {a b : String} (h : rho a = rho b) : a = b := by
  unfold rho at h
  cases ha : kept a <;> cases hb : kept b <;> rw [ha, hb] at h
  · have h1 : "_B." ++ a = "_B." ++ b := h
    have h2 := congrArg String.toList h1
    rw [String.toList_append, String.toList_append] at h2
    exact String.toList_inj.1 (List.append_cancel_left h2)
  · have h1 : "_B." ++ a = b := h
    rw [← h1, kept_b] at hb; cases hb
  · have h1 : a = "_B." ++ b := h
    rw [h1, kept_b] at ha; cases ha
  · exact h

open Classical in
/-- The attribute kept under this name. -/
noncomputable def dec (k : String) : Option String := if h : ∃ k', rho k' = k then some h.choose else none

theorem dec_rho (k : String) : dec (rho k) = some k := by
  unfold dec
  have h : ∃ k', rho k' = rho k := ⟨k, rfl⟩
  rw [dif_pos h]
  exact congrArg some (rho_inj h.choose_spec)

theorem dec_some {k k' : String} (h : dec k = some k') : k = rho k' := by
  unfold dec at h
  split at h
  · rename_i hx
    cases h
    exact hx.choose_spec.symm
  · cases h

theorem dec_none {k : String} (h : kept k = false) (h2 : ∀ r, k.toList ≠ '_' :: 'B' :: '.' :: r) : dec k = none := by
  unfold dec
  rw [dif_neg]
  rintro ⟨k', hk⟩
  unfold rho at hk
  split at hk
  · rename_i hx; rw [hk, h] at hx; cases hx
  · apply h2 k'.toList
    rw [← hk, String.toList_append]; rfl

/-- The attributes kept in a map. -/
noncomputable def decA (m : AMap String Val) : AMap String Val := m.filterMap fun p => (dec p.1).map fun k => (k, p.2)

/-- The attributes under the names under which they are kept. -/
def encA (m : AMap String Val) : AMap String Val := m.map fun p => (rho p.1, p.2)

theorem decA_cons_none {k : String} (v : Val) (m : AMap String Val) (h : dec k = none) : decA ((k, v) :: m) = decA m := by
  unfold decA; rw [List.filterMap_cons]; simp only [h]; rfl

theorem decA_cons_some {k k' : String} (v : Val) (m : AMap String Val) (h : dec k = some k') : decA ((k, v) :: m) = (k', v) :: decA m := by
  unfold decA; rw [List.filterMap_cons]; simp only [h]; rfl

theorem decA_set (m : AMap String Val) (k : String) (v : Val) : decA (AMap.set m (rho k) v) = AMap.set (decA m) k v := by
  induction m with
  | nil => show decA [(rho k, v)] = [(k, v)]; rw [decA_cons_some v [] (dec_rho k)]; rfl
  | cons p m ih =>
    obtain ⟨a, b⟩ := p
    show decA (if a = rho k then (rho k, v) :: m else (a, b) :: AMap.set m (rho k) v) = _
    cases hd : dec a with
    | none =>
      rw [if_neg (fun hc => by rw [hc, dec_rho] at hd; cases hd), decA_cons_none b _ hd, decA_cons_none b _ hd, ih]
    | some k' =>
      have ha := dec_some hd
      by_cases hk : k' = k
      · subst hk
        rw [if_pos ha, decA_cons_some v _ (dec_rho k'), decA_cons_some b _ hd]
        show _ = if k' = k' then _ else _
        rw [if_pos rfl]
      · rw [if_neg (fun hc => hk (rho_inj (ha.symm.trans hc))), decA_cons_some b _ hd, decA_cons_some b _ hd, ih]
        show _ = if k' = k then _ else _
        rw [if_neg hk]

theorem decA_set_none (m : AMap String Val) {k : String} (v : Val) (h : dec k = none) : decA (AMap.set m k v) = decA m := by
  induction m with
  | nil => exact decA_cons_none v [] h
  | cons p m ih =>
    obtain ⟨a, b⟩ := p
    show decA (if a = k then (k, v) :: m else (a, b) :: AMap.set m k v) = _
    split
    · rename_i hk; subst hk; rw [decA_cons_none v _ h, decA_cons_none b _ h]
    · cases hd : dec a with
      | none => rw [decA_cons_none b _ hd, decA_cons_none b _ hd, ih]
      | some k' => rw [decA_cons_some b _ hd, decA_cons_some b _ hd, ih]

theorem decA_get (m : AMap String Val) (k : String) : AMap.get? (decA m) k = AMap.get? m (rho k) := by
  induction m with
  | nil => rfl
  | cons p m ih =>
    obtain ⟨a, b⟩ := p
    show _ = if a = rho k then some b else AMap.get? m (rho k)
    cases hd : dec a with
    | none => rw [decA_cons_none b _ hd, if_neg (fun hc => by rw [hc, dec_rho] at hd; cases hd), ih]
    | some k' =>
      have ha := dec_some hd
      rw [decA_cons_some b _ hd]
      show (if k' = k then some b else AMap.get? (decA m) k) = _
      by_cases hk : k' = k
      · subst hk; rw [if_pos rfl, if_pos ha]
      · rw [if_neg hk, if_neg (fun hc => hk (rho_inj (ha.symm.trans hc))), ih]

theorem decA_update (m n : AMap String Val) : decA (AMap.update m (encA n)) = AMap.update (decA m) n := by
  induction n generalizing m with
  | nil => rfl
  | cons p n ih =>
    show decA (AMap.update (AMap.set m (rho p.1) p.2) (encA n)) = AMap.update (AMap.set (decA m) p.1 p.2) n
    rw [ih, decA_set]

/-! ### Instances -/

/-- The state in which the error handler starts, its flow instance and the graph of the error handler. -/
structure Start where
  e0 : Eng
  I0 : Inst
  g : Graph

/-- What is required of it. -/
structure Ok (P : Start) : Prop where
  eh : P.I0.defn.eh = some P.g
  handling : P.I0.handling = true
  links : ∀ l ∈ P.g.links, l.id ∉ P.I0.links.keys
  leaf : Leaf P.g

namespace Start

variable (P : Start)

/-- The error handler as a flow of its own. -/
def defn : Def := { name := P.I0.defn.name, main := P.g, eh := some P.g }

/-- Where the task objects of the error handler are. -/
def sh (o : Nat) : Nat := P.I0.objs.length + o

end Start

/-- The task of the error handler. -/
def refE (t : TaskRef) : TaskRef := ⟨true, t.id⟩

def objE (ob : Obj) : Obj := { ob with task := refE ob.task }

def entE (x : TaskEntry) : TaskEntry := ⟨refE x.task, x.enterCode⟩

def frmE : Frame → Frame
  | .enter es => .enter (es.map entE)
  | .release t => .release (refE t)

/-- Events of the flow as events of the error handler; its start is none. -/
def evE (P : Start) : Ev → Option Ev
  | .taskAdded o t => some (.taskAdded (P.sh o) t)
  | .taskStatus o t s => some (.taskStatus (P.sh o) (refE t) s)
  | .evalAct o t => some (.evalAct (P.sh o) (refE t))
  | .postAct o t => some (.postAct (P.sh o) (refE t))
  | .flowStatus .active => none
  | x => some x

def postE (P : Start) : Post → Option Post
  | .task o t s err => some (.task (P.sh o) (refE t) s err)
  | .flow .active _ => none
  | x => some x

/-- The flow instance that handles the error. -/
noncomputable def instE (P : Start) (J : Inst) : Inst :=
  { P.I0 with
    status := J.status
    objs := P.I0.objs ++ J.objs.map objE
    tasks := J.tasks.map (fun p => (p.1, P.sh p.2))
    links := P.I0.links ++ J.links
    force := J.force
    returnData := if J.force then J.returnData else J.returnData.or P.I0.returnData
    returnError := if J.force then J.returnError else P.I0.returnError
    attrs := decA J.attrs
    trace := J.trace.filterMap (evE P) ++ P.I0.trace
    posted := J.posted.filterMap (postE P) ++ P.I0.posted }

def itemE (P : Start) (w : WorkItem) : WorkItem := ⟨P.e0.wiCounter + w.id, w.inst, P.sh w.obj⟩

def qevE (P : Start) : QEv → QEv
  | .added w => .added (itemE P w)
  | .removed w => .removed (itemE P w)

/-- The state of the flow that handles the error. -/
noncomputable def engE (P : Start) (f : Eng) : Eng :=
  { P.e0 with
    insts := f.insts.map (instE P)
    queue := f.queue.map (itemE P)
    wiCounter := P.e0.wiCounter + f.wiCounter
    stepID := P.e0.stepID + f.stepID
    cur := f.cur
    stack := f.stack.map frmE
    replies := f.replies ++ P.e0.replies
    qlog := f.qlog.map (qevE P) ++ P.e0.qlog }

/-- What an activity does, with attributes kept under their other names. -/
def actE (a : ActOut) : ActOut := { a with sets := encA a.sets }

/-- The environment of the error handler as a flow of its own. -/
noncomputable def envE (P : Start) (env : Env) : Env :=
  { env with
    pick := fun f => env.pick (engE P f)
    act := fun f i o => actE (env.act (engE P f) i (P.sh o))
    post := fun f i o => actE (env.post (engE P f) i (P.sh o))
    link := fun f i l => env.link (engE P f) i l
    inMap := fun f i o => env.inMap (engE P f) i (P.sh o)
    outMap := fun f i o => (env.outMap (engE P f) i (P.sh o)).map fun p => (encA p.1, p.2)
    settingsOk := fun f i o => env.settingsOk (engE P f) i (P.sh o)
    inSchema := fun f i o => env.inSchema (engE P f) i (P.sh o)
    outSchema := fun f i o => env.outSchema (engE P f) i (P.sh o)
    retryCount := fun f i o => env.retryCount (engE P f) i (P.sh o)
    iterOn := fun f i o => env.iterOn (engE P f) i (P.sh o)
    cond := fun f i o => env.cond (engE P f) i (P.sh o)
    coerceIn := fun t => env.coerceIn (refE t)
    coerceOut := fun t => env.coerceOut (refE t) }

/-- The instance that handles the error and that of the error handler as a flow of its own. -/
structure LI (P : Start) (I J : Inst) : Prop where
  eq : I = instE P J
  defn : J.defn = P.defn
  handling : J.handling = false

namespace LI

variable {P : Start} {I J : Inst}

theorem graph (b : Bool) : P.defn.graph b = P.g := by cases b <;> rfl

theorem graphE (H : Ok P) : P.I0.defn.graph true = P.g := by unfold Def.graph; rw [H.eh]; rfl

theorem fromLinks (H : Ok P) (h : LI P I J) (t : TaskRef) : I.defn.fromLinks (refE t) = J.defn.fromLinks t := by
  rw [h.eq, h.defn]
  show ((P.I0.defn.graph true).fromLinks t.id) = ((P.defn.graph t.eh).fromLinks t.id)
  rw [graphE H, graph]

theorem toLinks (H : Ok P) (h : LI P I J) (t : TaskRef) : I.defn.toLinks (refE t) = J.defn.toLinks t := by
  rw [h.eq, h.defn]
  show ((P.I0.defn.graph true).toLinks t.id) = ((P.defn.graph t.eh).toLinks t.id)
  rw [graphE H, graph]

theorem from_mem (h : LI P I J) {t : TaskRef} {l : LinkDef} (hl : l ∈ J.defn.fromLinks t) : l ∈ P.g.links := by
  rw [h.defn] at hl
  have := (List.mem_filter.1 hl).1
  rwa [graph] at this

theorem to_mem (h : LI P I J) {t : TaskRef} {l : LinkDef} (hl : l ∈ J.defn.toLinks t) : l ∈ P.g.links := by
  rw [h.defn] at hl
  have := (List.mem_filter.1 hl).1
  rwa [graph] at this

theorem task? (H : Ok P) (h : LI P I J) (t : TaskRef) : I.defn.task? (refE t) = J.defn.task? t := by
  rw [h.eq, h.defn]
  show ((P.I0.defn.graph true).tasks.find? fun x => x.id = t.id) = ((P.defn.graph t.eh).tasks.find? fun x => x.id = t.id)
  rw [graphE H, graph]

theorem obj (h : LI P I J) (b : Nat) : I.objs[P.sh b]? = (J.objs[b]?).map objE := by
  rw [h.eq]
  show (P.I0.objs ++ J.objs.map objE)[P.I0.objs.length + b]? = _
  rw [List.getElem?_append_right (Nat.le_add_right ..), Nat.add_sub_cancel_left, List.getElem?_map]

theorem modify_append (l m : List Obj) (b : Nat) (g : Obj → Obj) : (l ++ m).modify (l.length + b) g = l ++ m.modify b g := by
  induction l with
  | nil => show m.modify (0 + b) g = _; rw [Nat.zero_add]; rfl
  | cons x l ih =>
    have : (x :: l).length + b = (l.length + b) + 1 := by rw [List.length_cons]; omega
    rw [this]
    show x :: (l ++ m).modify (l.length + b) g = _
    rw [ih]; rfl

theorem modify_map (m : List Obj) (b : Nat) (g : Obj → Obj) (hg : ∀ x, objE (g x) = g (objE x)) :
    (m.map objE).modify b g = (m.modify b g).map objE := by
  apply List.ext_getElem?
  intro k
  rw [List.getElem?_modify, List.getElem?_map, List.getElem?_map, List.getElem?_modify]
  cases m[k]? with
  | none => rfl
  | some x => show some _ = some _; split <;> simp [hg]

theorem objs_modify (J : Inst) (b : Nat) (g : Obj → Obj) (hg : ∀ x, objE (g x) = g (objE x)) :
    (instE P J).objs.modify (P.sh b) g = P.I0.objs ++ (J.objs.modify b g).map objE := by
  show (P.I0.objs ++ J.objs.map objE).modify (P.I0.objs.length + b) g = _
  rw [modify_append, modify_map _ _ _ hg]

theorem modO (h : LI P I J) (b : Nat) (g : Obj → Obj) (hg : ∀ x, objE (g x) = g (objE x)) : LI P (I.modO (P.sh b) g) (J.modO b g) := by
  refine ⟨?_, h.defn, h.handling⟩
  rw [h.eq]
  unfold Inst.modO
  rw [objs_modify J b g hg]
  rfl

theorem ev (h : LI P I J) (x y : Ev) (hxy : evE P y = some x) : LI P { I with trace := x :: I.trace } { J with trace := y :: J.trace } := by
  refine ⟨?_, h.defn, h.handling⟩
  rw [h.eq]
  unfold instE
  dsimp only
  rw [List.filterMap_cons_some hxy]
  rfl

theorem post (h : LI P I J) (x y : Post) (hxy : postE P y = some x) : LI P { I with posted := x :: I.posted } { J with posted := y :: J.posted } := by
  refine ⟨?_, h.defn, h.handling⟩
  rw [h.eq]
  unfold instE
  dsimp only
  rw [List.filterMap_cons_some hxy]
  rfl

theorem setTaskStatus (h : LI P I J) (b : Nat) (s : TaskStatus) : LI P (I.setTaskStatus (P.sh b) s) (J.setTaskStatus b s) := by
  unfold Inst.setTaskStatus
  rw [h.obj b]
  cases J.objs[b]? with
  | none => exact h
  | some ob =>
    exact ((h.modO b (fun x => { x with status := s }) fun _ => rfl).ev (.taskStatus (P.sh b) (refE ob.task) s) (.taskStatus b ob.task s) rfl).post
      (.task (P.sh b) (refE ob.task) s (if s = .failed then ob.returnError else none)) (.task b ob.task s (if s = .failed then ob.returnError else none)) rfl

theorem completed (h : LI P I J) : LI P (I.setFlowStatus .completed) (J.setFlowStatus .completed) := by
  have h1 := (h.ev (.flowStatus .completed) (.flowStatus .completed) rfl).post (.flow .completed none) (.flow .completed none) rfl
  refine ⟨?_, h.defn, h.handling⟩
  have h2 := h1.eq
  unfold Inst.setFlowStatus
  rw [if_neg (fun hc => nomatch hc), if_neg (fun hc => nomatch hc)]
  have h3 : ({ I with status := .completed, trace := .flowStatus .completed :: I.trace, posted := .flow .completed none :: I.posted } : Inst) =
    { ({ ({ I with trace := .flowStatus .completed :: I.trace } : Inst) with posted := .flow .completed none :: I.posted } : Inst) with status := .completed } := rfl
  rw [h3, h2]
  rfl

theorem setValue (h : LI P I J) (k : String) (v : Val) : LI P (I.setValue k v) (J.setValue (rho k) v) := by
  refine ⟨?_, h.defn, h.handling⟩
  rw [h.eq]
  unfold Inst.setValue instE
  dsimp only
  rw [decA_set]

theorem setValueE (h : LI P I J) (t : String) (v : Val) : LI P (I.setValue ("_E." ++ t) v) (J.setValue ("_E." ++ t) v) := by
  have := h.setValue ("_E." ++ t) v
  rwa [rho_e] at this

theorem setOther (h : LI P I J) {k : String} (v : Val) (hk : dec k = none) : LI P I (J.setValue k v) := by
  refine ⟨?_, h.defn, h.handling⟩
  rw [h.eq]
  unfold Inst.setValue instE
  dsimp only
  rw [decA_set_none _ _ hk]

theorem setAttrs (h : LI P I J) (m : AMap String Val) :
    LI P { I with attrs := I.attrs.update m } { J with attrs := J.attrs.update (encA m) } := by
  refine ⟨?_, h.defn, h.handling⟩
  rw [h.eq]
  unfold instE
  dsimp only
  rw [decA_update]

theorem get?_append {m n : AMap LinkId LinkStatus} {k : LinkId} (h : k ∉ m.keys) : AMap.get? (m ++ n) k = AMap.get? n k := by
  induction m with
  | nil => rfl
  | cons p m ih =>
    have h1 : p.1 ≠ k := fun hc => h (by rw [← hc]; exact List.mem_cons_self ..)
    show (if p.1 = k then some p.2 else AMap.get? (m ++ n) k) = _
    rw [if_neg h1, ih (fun hc => h (List.mem_cons_of_mem _ hc))]

theorem set_append {m n : AMap LinkId LinkStatus} {k : LinkId} (v : LinkStatus) (h : k ∉ m.keys) : AMap.set (m ++ n) k v = m ++ AMap.set n k v := by
  induction m with
  | nil => rfl
  | cons p m ih =>
    have h1 : p.1 ≠ k := fun hc => h (by rw [← hc]; exact List.mem_cons_self ..)
    show (if p.1 = k then (k, v) :: (m ++ n) else p :: AMap.set (m ++ n) k v) = _
    rw [if_neg h1, ih (fun hc => h (List.mem_cons_of_mem _ hc))]; rfl

theorem del_append {m n : AMap LinkId LinkStatus} {k : LinkId} (h : k ∉ m.keys) : AMap.del (m ++ n) k = m ++ AMap.del n k := by
  unfold AMap.del
  rw [List.filter_append]
  congr 1
  refine List.filter_eq_self.2 fun p hp => decide_eq_true fun hc => h ?_
  rw [← hc]
  exact List.mem_map_of_mem hp

theorem findLink (h : LI P I J) {l : LinkId} (hl : l ∉ P.I0.links.keys) : LI P (I.findLink l) (J.findLink l) := by
  have h1 : I.links.get? l = J.links.get? l := by rw [h.eq]; exact get?_append hl
  unfold Inst.findLink
  rw [h1]
  split
  · exact h
  · have h2 := h.ev (.linkAdded l) (.linkAdded l) rfl
    refine ⟨?_, h.defn, h.handling⟩
    have h3 : ({ I with links := I.links.set l .unset, trace := .linkAdded l :: I.trace } : Inst) =
      { ({ I with trace := .linkAdded l :: I.trace } : Inst) with links := I.links.set l .unset } := rfl
    have h4 : I.links.set l .unset = P.I0.links ++ J.links.set l .unset := by rw [h.eq]; exact set_append _ hl
    rw [h3, h2.eq, h4]
    rfl

theorem findLinks (h : LI P I J) (ls : List LinkDef) (hl : ∀ l ∈ ls, l.id ∉ P.I0.links.keys) : LI P (I.findLinks ls) (J.findLinks ls) := by
  induction ls generalizing I J with
  | nil => exact h
  | cons l ls ih => exact ih (h.findLink (hl l (List.mem_cons_self ..))) fun x hx => hl x (List.mem_cons_of_mem _ hx)

theorem setLink (h : LI P I J) {l : LinkId} (s : LinkStatus) (hl : l ∉ P.I0.links.keys) : LI P (I.setLink l s) (J.setLink l s) := by
  have h2 := h.ev (.linkStatus l s) (.linkStatus l s) rfl
  refine ⟨?_, h.defn, h.handling⟩
  unfold Inst.setLink
  have h3 : ({ I with links := I.links.set l s, trace := .linkStatus l s :: I.trace } : Inst) =
    { ({ I with trace := .linkStatus l s :: I.trace } : Inst) with links := I.links.set l s } := rfl
  have h4 : I.links.set l s = P.I0.links ++ J.links.set l s := by rw [h.eq]; exact set_append _ hl
  rw [h3, h2.eq, h4]
  rfl

theorem applyRows (h : LI P I J) (rows : List (LinkDef × LinkStatus × Nat)) (hl : ∀ r ∈ rows, r.1.id ∉ P.I0.links.keys) :
    LI P (I.applyRows rows) (J.applyRows rows) := by
  induction rows generalizing I J with
  | nil => exact h
  | cons x rows ih => exact ih (h.setLink x.2.1 (hl x (List.mem_cons_self ..))) fun y hy => hl y (List.mem_cons_of_mem _ hy)

theorem linkSt (h : LI P I J) {l : LinkId} (hl : l ∉ P.I0.links.keys) : I.linkSt l = J.linkSt l := by
  unfold Inst.linkSt
  rw [h.eq]
  show (AMap.get? (P.I0.links ++ J.links) l).getD _ = _
  rw [get?_append hl]

theorem get?_map (r : Nat → Nat) (m : AMap TaskId Nat) (k : TaskId) : AMap.get? (m.map (fun p => (p.1, r p.2))) k = (AMap.get? m k).map r := by
  induction m with
  | nil => rfl
  | cons p m ih =>
    show (if p.1 = k then some (r p.2) else AMap.get? _ k) = Option.map r (if p.1 = k then some p.2 else AMap.get? m k)
    split
    · rfl
    · exact ih

theorem set_map (r : Nat → Nat) (m : AMap TaskId Nat) (k : TaskId) (v : Nat) :
    AMap.set (m.map (fun p => (p.1, r p.2))) k (r v) = (AMap.set m k v).map (fun p => (p.1, r p.2)) := by
  induction m with
  | nil => rfl
  | cons p m ih =>
    show (if p.1 = k then (k, r v) :: _ else (p.1, r p.2) :: AMap.set _ k (r v)) = List.map _ (if p.1 = k then (k, v) :: m else p :: AMap.set m k v)
    split
    · rfl
    · rw [ih]; rfl

theorem findOrCreateTask (h : LI P I J) (t : TaskRef) :
    LI P (I.findOrCreateTask (refE t)).1 (J.findOrCreateTask t).1 ∧ (I.findOrCreateTask (refE t)).2 = P.sh (J.findOrCreateTask t).2 := by
  have hg : I.tasks.get? (refE t).id = (J.tasks.get? t.id).map P.sh := by rw [h.eq]; exact get?_map _ _ _
  have hlen : I.objs.length = P.sh J.objs.length := by
    rw [h.eq]
    show (P.I0.objs ++ J.objs.map objE).length = P.I0.objs.length + J.objs.length
    rw [List.length_append, List.length_map]
  unfold Inst.findOrCreateTask
  rw [hg]
  cases J.tasks.get? t.id with
  | some o => exact ⟨h, rfl⟩
  | none =>
    refine ⟨?_, hlen⟩
    have h2 := h.ev (.taskAdded (P.sh J.objs.length) t.id) (.taskAdded J.objs.length t.id) rfl
    refine ⟨?_, h.defn, h.handling⟩
    have h3 : ({ I with objs := I.objs ++ [{ task := refE t }], tasks := I.tasks.set (refE t).id I.objs.length, trace := .taskAdded I.objs.length (refE t).id :: I.trace } : Inst) =
      { ({ I with trace := .taskAdded I.objs.length t.id :: I.trace } : Inst) with objs := I.objs ++ [{ task := refE t }], tasks := I.tasks.set t.id I.objs.length } := rfl
    have h4 : I.objs ++ [({ task := refE t } : Obj)] = P.I0.objs ++ (J.objs ++ [({ task := t } : Obj)]).map objE := by
      rw [h.eq]
      show (P.I0.objs ++ J.objs.map objE) ++ _ = _
      rw [List.map_append, List.append_assoc]; rfl
    have h5 : I.tasks.set t.id (P.sh J.objs.length) = (J.tasks.set t.id J.objs.length).map (fun p => (p.1, P.sh p.2)) := by
      rw [h.eq]; exact set_map _ _ _ _
    dsimp only
    rw [h3, hlen, h4, h5, h2.eq]
    rfl

theorem enterTask (H : Ok P) (h : LI P I J) (t : TaskRef) : LI P (I.enterTask (refE t)).1 (J.enterTask t).1 ∧
    (I.enterTask (refE t)).2.1 = P.sh (J.enterTask t).2.1 ∧ (I.enterTask (refE t)).2.2 = (J.enterTask t).2.2 := by
  obtain ⟨h1, h2⟩ := h.findOrCreateTask t
  unfold Inst.enterTask
  dsimp only
  rw [h2, h1.obj]
  cases (J.findOrCreateTask t).1.objs[(J.findOrCreateTask t).2]? with
  | none => exact ⟨h1, rfl, rfl⟩
  | some ob =>
    dsimp only [Option.map_some]
    have hf : (I.findOrCreateTask (refE t)).1.defn.fromLinks (objE ob).task = (J.findOrCreateTask t).1.defn.fromLinks ob.task := h1.fromLinks H ob.task
    rw [hf]
    have hm : ∀ l ∈ (J.findOrCreateTask t).1.defn.fromLinks ob.task, l.id ∉ P.I0.links.keys := fun l hl => H.links l (h1.from_mem hl)
    have h6 := (h1.setTaskStatus (J.findOrCreateTask t).2 .entered).findLinks _ hm
    have h7 : ((J.findOrCreateTask t).1.defn.fromLinks ob.task).map (fun l : LinkDef =>
        (((I.findOrCreateTask (refE t)).1.setTaskStatus (P.sh (J.findOrCreateTask t).2) .entered).findLinks ((J.findOrCreateTask t).1.defn.fromLinks ob.task)).linkSt l.id) =
      ((J.findOrCreateTask t).1.defn.fromLinks ob.task).map (fun l : LinkDef =>
        (((J.findOrCreateTask t).1.setTaskStatus (J.findOrCreateTask t).2 .entered).findLinks ((J.findOrCreateTask t).1.defn.fromLinks ob.task)).linkSt l.id) :=
      List.map_congr_left fun l hl => h6.linkSt (hm l hl)
    rw [h7]
    split
    · exact ⟨h6, rfl, rfl⟩
    · exact ⟨h6.setTaskStatus _ .ready, rfl, rfl⟩
    · exact ⟨h6.setTaskStatus _ .skipped, rfl, rfl⟩

theorem allDone (h : LI P I J) : I.allDone = J.allDone := by
  unfold Inst.allDone
  have h1 : I.tasks = J.tasks.map (fun p => (p.1, P.sh p.2)) := by rw [h.eq]; rfl
  rw [h1, List.all_map]
  congr 1
  funext p
  show (match I.objs[P.sh p.2]? with | some ob => _ | none => true) = _
  rw [h.obj]
  cases J.objs[p.2]? <;> rfl

theorem dropLinks (h : LI P I J) (ls : List LinkDef) (hl : ∀ l ∈ ls, l.id ∉ P.I0.links.keys) :
    LI P (ls.foldl (fun J l => { J with links := J.links.del l.id, trace := .linkRemoved l.id :: J.trace }) I)
      (ls.foldl (fun J l => { J with links := J.links.del l.id, trace := .linkRemoved l.id :: J.trace }) J) := by
  induction ls generalizing I J with
  | nil => exact h
  | cons l ls ih =>
    refine ih (I := { I with links := I.links.del l.id, trace := .linkRemoved l.id :: I.trace })
      (J := { J with links := J.links.del l.id, trace := .linkRemoved l.id :: J.trace }) ?_ fun x hx => hl x (List.mem_cons_of_mem _ hx)
    have h2 := h.ev (.linkRemoved l.id) (.linkRemoved l.id) rfl
    refine ⟨?_, h.defn, h.handling⟩
    have h3 : ({ I with links := I.links.del l.id, trace := .linkRemoved l.id :: I.trace } : Inst) =
      { ({ I with trace := .linkRemoved l.id :: I.trace } : Inst) with links := I.links.del l.id } := rfl
    have h4 : I.links.del l.id = P.I0.links ++ J.links.del l.id := by rw [h.eq]; exact del_append (hl l (List.mem_cons_self ..))
    rw [h3, h2.eq, h4]
    rfl

theorem release (H : Ok P) (h : LI P I J) (t : TaskRef) : LI P (I.release (refE t)) (J.release t) := by
  unfold Inst.release
  rw [h.fromLinks H]
  refine dropLinks ?_ _ fun l hl => H.links l (h.from_mem hl)
  have h2 := h.ev (.taskRemoved t.id) (.taskRemoved t.id) rfl
  refine ⟨?_, h.defn, h.handling⟩
  have h3 : ({ I with tasks := I.tasks.del (refE t).id, trace := .taskRemoved (refE t).id :: I.trace } : Inst) =
    { ({ I with trace := .taskRemoved t.id :: I.trace } : Inst) with tasks := I.tasks.del t.id } := rfl
  have h4 : I.tasks.del t.id = (J.tasks.del t.id).map (fun p => (p.1, P.sh p.2)) := by
    rw [h.eq]
    show AMap.del (J.tasks.map _) t.id = _
    unfold AMap.del
    rw [List.filter_map]; rfl
  rw [h3, h2.eq, h4]
  rfl

theorem rowEntries_map (eh : Bool) (rows : List (LinkDef × LinkStatus × Nat)) : rowEntries true rows = (rowEntries eh rows).map entE := by
  unfold rowEntries
  rw [List.map_map]; rfl

theorem insertEntry_map (x : TaskEntry) (es : List TaskEntry) : insertEntry (entE x) (es.map entE) = (insertEntry x es).map entE := by
  induction es with
  | nil => rfl
  | cons y es ih =>
    show (if x.enterCode ≤ y.enterCode then entE x :: entE y :: es.map entE else entE y :: insertEntry (entE x) (es.map entE)) =
      List.map entE (if x.enterCode ≤ y.enterCode then x :: y :: es else y :: insertEntry x es)
    split
    · rfl
    · rw [ih]; rfl

theorem sortEntries_map (es : List TaskEntry) : sortEntries (es.map entE) = (sortEntries es).map entE := by
  induction es with
  | nil => rfl
  | cons x es ih => show insertEntry (entE x) (sortEntries (es.map entE)) = _; rw [ih, insertEntry_map]; rfl

theorem skipTask (H : Ok P) (h : LI P I J) (b : Nat) (t : TaskRef) :
    LI P (I.skipTask (P.sh b) (refE t)).1 (J.skipTask b t).1 ∧ (I.skipTask (P.sh b) (refE t)).2 = (J.skipTask b t).2.map entE := by
  unfold Inst.skipTask
  rw [h.toLinks H]
  refine ⟨((h.findLinks _ fun l hl => H.links l (h.to_mem hl)).setTaskStatus b _).applyRows _ fun r hr => ?_, rowEntries_map _ _⟩
  obtain ⟨l, hl, rfl⟩ := List.mem_map.1 hr
  exact H.links l (h.to_mem hl)

theorem doneTask (H : Ok P) (h : LI P I J) (b : Nat) (prio : Bool) (ev : LinkDef → ExprOut) (t : TaskRef) :
    LI P (Inst.doneTask prio ev I (P.sh b) (refE t)).1 (Inst.doneTask prio ev J b t).1 ∧
      (Inst.doneTask prio ev I (P.sh b) (refE t)).2 = (Inst.doneTask prio ev J b t).2.map (List.map entE) := by
  unfold Inst.doneTask
  rw [h.toLinks H]
  dsimp only
  have h1 := (h.findLinks _ fun l hl => H.links l (h.to_mem (t := t) hl)).setTaskStatus b .done
  have hr := doneRows_rows prio ev (J.defn.toLinks t)
  split
  · rename_i hx; rw [hx] at hr
    exact ⟨h1.applyRows _ fun r hm => H.links _ (h.to_mem (hr r hm).1), rfl⟩
  · rename_i hx; rw [hx] at hr
    refine ⟨h1.applyRows _ fun r hm => H.links _ (h.to_mem (hr r hm).1), ?_⟩
    show Except.ok _ = Except.ok _
    rw [← sortEntries_map]
    exact congrArg _ (congrArg _ (rowEntries_map _ _))

theorem errorTask (H : Ok P) (h : LI P I J) (b : Nat) (t : TaskRef) :
    LI P (I.errorTask (P.sh b) (refE t)).1 (J.errorTask b t).1 ∧ (I.errorTask (P.sh b) (refE t)).2 = (J.errorTask b t).2.map (List.map entE) := by
  unfold Inst.errorTask
  rw [h.toLinks H]
  dsimp only
  have h1 := (h.setTaskStatus b .failed).findLinks _ fun l hl => H.links l (h.to_mem (t := t) hl)
  have hr := errorRows_links (ls := J.defn.toLinks t)
  split
  · exact ⟨h1, rfl⟩
  · rename_i rows hx
    rw [hx] at hr
    refine ⟨h1.applyRows _ fun r hm => H.links _ (h.to_mem (hr r hm)), ?_⟩
    show some _ = some _
    rw [← sortEntries_map]
    exact congrArg _ (congrArg _ (rowEntries_map _ _))

end LI

end Lift

end Flow
