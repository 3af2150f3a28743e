import Verif.Proofs.ConcTrace
import Verif.Proofs.GraphRows
import Verif.Spec.Concurrent

/-
Concurrent mode: if there is at most one way to enter each task, each task ends at most once. Everything that is still to
happen to a task (an entry of a list of successors, a task instance that is tested, scheduled, queued or executed) is
counted together with its ends.
-/

namespace Flow.Conc

open Flow Spec

/-! ### Counting -/

def entTok (k : TaskId) (es : List TaskEntry) : Nat := es.countP (fun x => x.task.id = k)

def objTok (I : Inst) (k : TaskId) (o : Nat) : Nat := if I.objs[o]?.map (·.task.id) = some k then 1 else 0

def frTok (I : Inst) (k : TaskId) : Fr → Nat
  | .run o => objTok I k o
  | .rows .. => 0
  | .finish _ _ es => entTok k es
  | .fail => 0
  | .lock es => entTok k es
  | .enter es => entTok k es
  | .test o es => objTok I k o + entTok k es
  | .push o es => objTok I k o + entTok k es
  | .release _ => 0

def stackTok (I : Inst) (k : TaskId) (fs : List Fr) : Nat := (fs.map (frTok I k)).sum

def queueTok (I : Inst) (k : TaskId) (q : List Nat) : Nat := (q.map (objTok I k)).sum

def sumTo (f : Nat → Nat) : Nat → Nat
  | 0 => 0
  | n + 1 => sumTo f n + f n

def toks (s : St) (k : TaskId) (n : Nat) : Nat :=
  sumTo (fun g => stackTok s.inst k (s.gs g)) n + queueTok s.inst k s.queue + timesEnded s.inst.trace k

def allLinks (d : Def) : List LinkDef := (d.graph false).links ++ (d.graph true).links

def linkCap (tr : List Flow.Ev) (k : TaskId) (ls : List LinkDef) : Nat :=
  (ls.map (fun l => if l.dst = k then timesEnded tr l.src else 0)).sum

def startTok (d : Def) (b : Bool) (k : TaskId) : Nat := entTok k (Inst.startEntries d b)

def caps (d : Def) (s : St) (k : TaskId) : Nat :=
  startTok d false k + (if s.inst.handling then startTok d true k else 0) + linkCap s.inst.trace k (allLinks d)

theorem stackTok_cons (I : Inst) (k : TaskId) (f : Fr) (fs : List Fr) : stackTok I k (f :: fs) = frTok I k f + stackTok I k fs := by
  simp [stackTok]

theorem entTok_cons (k : TaskId) (x : TaskEntry) (xs : List TaskEntry) :
    entTok k (x :: xs) = (if x.task.id = k then 1 else 0) + entTok k xs := by
  unfold entTok
  rw [List.countP_cons]
  by_cases h : x.task.id = k <;> simp [h] <;> omega

theorem sumTo_congr {f g : Nat → Nat} : ∀ n, (∀ i, i < n → f i = g i) → sumTo f n = sumTo g n
  | 0, _ => rfl
  | n + 1, h => by
    unfold sumTo
    rw [sumTo_congr n (fun i hi => h i (by omega)), h n (by omega)]

theorem sumTo_mono (f : Nat → Nat) {n m : Nat} (h : n ≤ m) : sumTo f n ≤ sumTo f m := by
  induction m with
  | zero => have : n = 0 := by omega
            subst this; exact Nat.le_refl _
  | succ m ih =>
    by_cases e : n = m + 1
    · subst e; exact Nat.le_refl _
    · have := ih (by omega)
      show sumTo f n ≤ sumTo f m + f m
      omega

theorem sumTo_update {f h : Nat → Nat} {g : Nat} (hne : ∀ i, i ≠ g → h i = f i) : ∀ n, g < n → sumTo h n + f g = sumTo f n + h g
  | 0, hn => by omega
  | n + 1, hn => by
    unfold sumTo
    by_cases e : g = n
    · subst e
      rw [sumTo_congr g (fun i hi => hne i (by omega))]; omega
    · have := sumTo_update hne n (by omega)
      rw [hne n (fun x => e x.symm)]; omega

theorem sumTo_le (f : Nat → Nat) {g : Nat} : ∀ n, g < n → f g ≤ sumTo f n
  | 0, hn => by omega
  | n + 1, hn => by
    unfold sumTo
    by_cases e : g = n
    · subst e; omega
    · have := sumTo_le f n (g := g) (by omega)
      omega

/-! ### Ends -/

theorem ends_append (evs tr : List Flow.Ev) (k : TaskId) : timesEnded (evs ++ tr) k = timesEnded evs k + timesEnded tr k := by
  simp [timesEnded, List.countP_append]

theorem ends_mono {I J : Inst} (x : Ext I J) (k : TaskId) : timesEnded I.trace k ≤ timesEnded J.trace k := by
  obtain ⟨evs, h⟩ := x.trace
  rw [h, ends_append]; omega

def isEndStatus : TaskStatus → Bool
  | .done => true
  | .failed => true
  | .skipped => true
  | _ => false

theorem ends_status (I : Inst) (k : TaskId) (o : Nat) (st : TaskStatus) :
    timesEnded (I.setTaskStatus o st).trace k = timesEnded I.trace k + if isEndStatus st then objTok I k o else 0 := by
  unfold Inst.setTaskStatus objTok
  split
  · rename_i h; rw [h]; simp
  · rename_i ob h
    rw [h]
    unfold timesEnded
    rw [List.countP_cons]
    by_cases e : ob.task.id = k
    · cases st <;> simp [endsTask, isEndStatus, e]
    · cases st <;> simp [endsTask, isEndStatus, e]

theorem ends_findLink (I : Inst) (k : TaskId) (l : LinkId) : timesEnded (I.findLink l).trace k = timesEnded I.trace k := by
  unfold Inst.findLink
  split
  · rfl
  · unfold timesEnded; rw [List.countP_cons]; rfl

theorem ends_findLinks (k : TaskId) (ls : List LinkDef) : ∀ I : Inst, timesEnded (I.findLinks ls).trace k = timesEnded I.trace k := by
  unfold Inst.findLinks
  induction ls with
  | nil => intro I; rfl
  | cons l ls ih => intro I; rw [List.foldl_cons, ih, ends_findLink]

theorem ends_create (I : Inst) (k : TaskId) (t : TaskRef) : timesEnded (I.findOrCreateTask t).1.trace k = timesEnded I.trace k := by
  unfold Inst.findOrCreateTask
  split
  · rfl
  · unfold timesEnded; rw [List.countP_cons]; rfl

theorem ends_release (I : Inst) (k : TaskId) (t : TaskRef) : timesEnded (I.release t).trace k = timesEnded I.trace k := by
  unfold Inst.release
  have h0 : timesEnded ({ I with tasks := I.tasks.del t.id, trace := .taskRemoved t.id :: I.trace } : Inst).trace k = timesEnded I.trace k := by
    unfold timesEnded; rw [List.countP_cons]; rfl
  refine Eq.trans ?_ h0
  generalize ({ I with tasks := I.tasks.del t.id, trace := .taskRemoved t.id :: I.trace } : Inst) = J
  generalize I.defn.fromLinks t = ls
  induction ls generalizing J with
  | nil => rfl
  | cons l ls ih =>
    rw [List.foldl_cons, ih]
    unfold timesEnded; rw [List.countP_cons]; rfl

/-! ### Task instances -/

theorem objTok_ext {I J : Inst} (x : Ext I J) {o : Nat} (h : o < I.objs.length) (k : TaskId) : objTok J k o = objTok I k o := by
  obtain ⟨ob, ho⟩ : ∃ ob, I.objs[o]? = some ob := ⟨_, List.getElem?_eq_getElem h⟩
  obtain ⟨ob', h1, h2⟩ := x.objs o ob ho
  unfold objTok
  rw [ho, h1]
  simp [h2]

theorem frTok_ext {I J : Inst} (x : Ext I J) {f : Fr} (h : ∀ o, objOf f = some o → o < I.objs.length) (k : TaskId) :
    frTok J k f = frTok I k f := by
  cases f with
  | run o => exact objTok_ext x (h o rfl) k
  | test o es => exact congrArg (· + entTok k es) (objTok_ext x (h o rfl) k)
  | push o es => exact congrArg (· + entTok k es) (objTok_ext x (h o rfl) k)
  | _ => rfl

theorem stackTok_ext {I J : Inst} (x : Ext I J) {fs : List Fr} (h : ∀ f ∈ fs, ∀ o, objOf f = some o → o < I.objs.length) (k : TaskId) :
    stackTok J k fs = stackTok I k fs := by
  unfold stackTok
  rw [List.map_congr_left (fun f hf => frTok_ext x (h f hf) k)]

theorem queueTok_ext {I J : Inst} (x : Ext I J) {q : List Nat} (h : ∀ o ∈ q, o < I.objs.length) (k : TaskId) :
    queueTok J k q = queueTok I k q := by
  unfold queueTok
  rw [List.map_congr_left (fun o ho => objTok_ext x (h o ho) k)]

theorem objTok_create {I : Inst} (ok : InstOK I) (t : TaskRef) (k : TaskId) :
    objTok (I.findOrCreateTask t).1 k (I.findOrCreateTask t).2 = if t.id = k then 1 else 0 := by
  unfold Inst.findOrCreateTask objTok
  split
  · rename_i o ho
    obtain ⟨ob, h1, h2⟩ := ok.tasks _ _ ho
    simp [h1, h2]
  · simp

/-! ### Capacities -/

theorem linkCap_mono {tr tr' : List Flow.Ev} (h : ∀ j, timesEnded tr j ≤ timesEnded tr' j) (k : TaskId) (ls : List LinkDef) :
    linkCap tr k ls ≤ linkCap tr' k ls := by
  unfold linkCap
  induction ls with
  | nil => exact Nat.le_refl _
  | cons l ls ih =>
    simp only [List.map_cons, List.sum_cons]
    have : (if l.dst = k then timesEnded tr l.src else 0) ≤ if l.dst = k then timesEnded tr' l.src else 0 := by
      split
      · exact h _
      · exact Nat.le_refl _
    omega

theorem linkCap_ended {tr tr' : List Flow.Ev} {j : TaskId} (h : ∀ i, timesEnded tr i ≤ timesEnded tr' i) (hj : timesEnded tr j + 1 ≤ timesEnded tr' j) (k : TaskId)
    (ls : List LinkDef) : linkCap tr k ls + ls.countP (fun l => l.src = j ∧ l.dst = k) ≤ linkCap tr' k ls := by
  unfold linkCap
  induction ls with
  | nil => exact Nat.le_refl _
  | cons l ls ih =>
    simp only [List.map_cons, List.sum_cons, List.countP_cons]
    by_cases e : l.dst = k
    · by_cases e' : l.src = j
      · simp only [e, e', if_true, and_self, decide_true]; omega
      · have := h l.src
        simp only [e, e', if_true, false_and, decide_false, Bool.false_eq_true, if_false]; omega
    · simp only [e, and_false, decide_false, Bool.false_eq_true, if_false]; omega

theorem linkCap_none {tr : List Flow.Ev} {k : TaskId} {ls : List LinkDef} (h : ls.countP (fun l => decide (l.dst = k)) = 0) :
    linkCap tr k ls = 0 := by
  unfold linkCap
  induction ls with
  | nil => rfl
  | cons l ls ih =>
    rw [List.countP_cons] at h
    by_cases e : l.dst = k
    · simp only [e, decide_true, if_true] at h; omega
    · simp only [e, decide_false, Bool.false_eq_true, if_false] at h
      simp only [List.map_cons, List.sum_cons, e, if_false]
      have := ih (by omega); omega

theorem linkCap_zero {tr : List Flow.Ev} {k : TaskId} {ls : List LinkDef} (h : ls.countP (fun l => l.dst = k) ≤ 1) {j : TaskId}
    (hj : 0 < ls.countP (fun l => l.src = j ∧ l.dst = k)) (he : timesEnded tr j = 0) : linkCap tr k ls = 0 := by
  unfold linkCap
  induction ls with
  | nil => rfl
  | cons l ls ih =>
    simp only [List.map_cons, List.sum_cons]
    rw [List.countP_cons] at h hj
    have hle : ls.countP (fun l => l.src = j ∧ l.dst = k) ≤ ls.countP (fun l => l.dst = k) :=
      List.countP_mono_left (fun x _ hx => by simp at hx ⊢; exact hx.2)
    by_cases e : l.dst = k
    · simp only [e, decide_true, if_true] at h
      have h0 : ls.countP (fun l => decide (l.dst = k)) = 0 := by omega
      have hs : l.src = j := by
        by_cases e' : l.src = j
        · exact e'
        · simp only [e', false_and, decide_false, Bool.false_eq_true, if_false] at hj; omega
      rw [if_pos e, hs, he]
      have h2 := linkCap_none (tr := tr) h0
      unfold linkCap at h2
      rw [h2]
    · rw [if_neg e]
      simp only [e, decide_false, Bool.false_eq_true, if_false, and_false] at h hj
      have := ih (by omega) (by omega)
      omega

theorem caps_mono {d : Def} {s s' : St} (x : Ext s.inst s'.inst) (k : TaskId) : caps d s k ≤ caps d s' k := by
  unfold caps
  have h1 := linkCap_mono (fun j => ends_mono x j) k (allLinks d)
  have h2 : (if s.inst.handling then startTok d true k else 0) ≤ if s'.inst.handling then startTok d true k else 0 := by
    split
    · rename_i h; rw [if_pos (x.handling h)]; exact Nat.le_refl _
    · exact Nat.zero_le _
  omega

/-- New entries of successors. -/
def outTok (d : Def) (t : TaskRef) (k : TaskId) : Nat := (d.toLinks t).countP (fun l => l.dst = k)

theorem countP_toLinks (g : Graph) (j k : TaskId) : (g.toLinks j).countP (fun l => l.dst = k) = g.links.countP (fun l => l.src = j ∧ l.dst = k) := by
  unfold Graph.toLinks
  rw [List.countP_filter]
  exact List.countP_congr (fun l _ => by simp [and_comm])

theorem outTok_le (d : Def) (t : TaskRef) (k : TaskId) : outTok d t k ≤ (allLinks d).countP (fun l => l.src = t.id ∧ l.dst = k) := by
  unfold outTok Def.toLinks
  rw [countP_toLinks]
  unfold allLinks
  rw [List.countP_append]
  cases t.eh <;> omega

theorem rowEntries_tok {eh : Bool} {rows : List (LinkDef × LinkStatus × Nat)} {ls : List LinkDef} (h : rows.map (·.1) = ls) (k : TaskId) :
    entTok k (rowEntries eh rows) = ls.countP (fun l => l.dst = k) := by
  subst h
  unfold entTok rowEntries
  rw [List.countP_map, List.countP_map]
  rfl

theorem sort_tok (k : TaskId) (es : List TaskEntry) : entTok k (sortEntries es) = entTok k es :=
  (sortEntries_perm es).countP_eq _

theorem doneFrames_tok (prio : Bool) (ev : LinkDef → ExprOut) (I J : Inst) (gen : LinkId → Nat) (t : TaskRef) (rest : List Fr) (k : TaskId) :
    stackTok J k (doneFrames prio ev I gen t rest) ≤ outTok I.defn t k + stackTok J k rest := by
  unfold doneFrames
  cases hx : doneRows prio ev (I.defn.toLinks t) with
  | error p => simp only [stackTok_cons, frTok]; omega
  | ok rows =>
    simp only [stackTok_cons, frTok]
    rw [sort_tok, rowEntries_tok (GraphM.doneRows_rowsOK hx).1.links]
    unfold outTok; omega

theorem errorFrames_tok (I J : Inst) (gen : LinkId → Nat) (t : TaskRef) (rest : List Fr) (k : TaskId) :
    stackTok J k (errorFrames I gen t rest) ≤ outTok I.defn t k + stackTok J k rest := by
  unfold errorFrames
  split
  · simp only [stackTok_cons, frTok]; omega
  · rename_i rows hx
    simp only [stackTok_cons, frTok]
    have hl : rows.map (·.1) = I.defn.toLinks t := by
      unfold errorRows at hx
      split at hx
      · cases hx
        rw [List.map_map]
        refine (List.map_congr_left fun l _ => ?_).trans (List.map_id _)
        show (if l.type = .error then (l, LinkStatus.true, 0) else (l, .false, 4)).1 = l
        split <;> rfl
      · cases hx
    rw [sort_tok, rowEntries_tok hl]
    unfold outTok; omega

theorem skipRows_links (ls : List LinkDef) : (skipRows ls).map (·.1) = ls := by
  unfold skipRows
  rw [List.map_map]
  exact List.map_id _

/-! ### The invariant -/

structure OnceOK (d : Def) (s : St) : Prop where
  cap : ∀ k n, toks s k n ≤ caps d s k
  one : ∀ k n, toks s k n ≤ 1

theorem entrances_le {d : Def} (k : TaskId) :
    startTok d false k + startTok d true k + (allLinks d).countP (fun l => l.dst = k) ≤ entrances d k := by
  have key : ∀ b, startTok d b k + (d.graph b).links.countP (fun l => l.dst = k) = graphEntrances (d.graph b) k := by
    intro b
    unfold startTok entTok Inst.startEntries graphEntrances
    rw [List.countP_map, List.countP_filter]
    congr 1
    refine List.countP_congr fun t _ => ?_
    simp only [Function.comp_apply, Bool.and_eq_true, decide_eq_true_eq, Def.fromLinks, Graph.fromLinks]
    constructor
    · rintro ⟨h1, h2⟩
      subst h1
      refine ⟨rfl, fun l hl he => ?_⟩
      have := List.length_eq_zero_iff.1 (of_decide_eq_true h2)
      have hm : l ∈ (d.graph b).links.filter (fun l => decide (l.dst = t.id)) := List.mem_filter.2 ⟨hl, by simp [he]⟩
      rw [this] at hm
      cases hm
    · rintro ⟨h1, h2⟩
      subst h1
      refine ⟨rfl, decide_eq_true (List.length_eq_zero_iff.2 (List.filter_eq_nil_iff.2 fun l hl => ?_))⟩
      simpa using h2 l hl
  have h1 := key false
  have h2 := key true
  unfold allLinks entrances
  rw [List.countP_append]
  have h3 : graphEntrances (d.graph true) k = (d.eh.map (fun g => graphEntrances g k)).getD 0 := by
    unfold Def.graph
    cases d.eh <;> rfl
  rw [← h3]
  have h4 : graphEntrances d.main k = graphEntrances (d.graph false) k := rfl
  omega

theorem OnceOK.init {d : Def} (h1 : ∀ k, entrances d k ≤ 1) (uri : String) : OnceOK d (init d uri) := by
  have key : ∀ k n, toks (Conc.init d uri) k n ≤ startTok d false k := by
    intro k n
    unfold toks
    have h0 : timesEnded (Conc.init d uri).inst.trace k = 0 := rfl
    have hq : queueTok (Conc.init d uri).inst k (Conc.init d uri).queue = 0 := rfl
    have hs := sumTo_mono (fun g => stackTok (Conc.init d uri).inst k ((Conc.init d uri).gs g)) (Nat.le_max_left n 1)
    have hu := sumTo_update (f := fun g => stackTok (Conc.init d uri).inst k ((Conc.init d uri).gs g)) (h := fun _ => 0) (g := 0)
      (fun i hi => by
        show 0 = stackTok _ k (if i = 0 then _ else [])
        rw [if_neg hi]; rfl) (max n 1) (by omega)
    have hz : sumTo (fun _ => 0) (max n 1) = 0 := by
      generalize max n 1 = m
      induction m with
      | zero => rfl
      | succ m ih => unfold sumTo; omega
    have hf : stackTok (Conc.init d uri).inst k ((Conc.init d uri).gs 0) = startTok d false k := by
      show stackTok _ k [.lock _] = _
      rw [stackTok_cons]
      show entTok k _ + 0 = _
      rfl
    omega
  refine ⟨fun k n => ?_, fun k n => ?_⟩
  · have := key k n
    unfold caps; omega
  · have := key k n
    have h2 := entrances_le (d := d) k
    have h3 := h1 k
    omega

/-- A step of goroutine `g`. `add`: the new entries. -/
theorem OnceOK.move {d : Def} {s s' : St} (ok : OnceOK d s) (ho : ObjsOK s) {g : Nat} {fs : List Fr} (add : TaskId → Nat)
    (x : Ext s.inst s'.inst) (hg : s'.gs = (s.goto g fs).gs)
    (hl : ∀ k, stackTok s'.inst k fs + queueTok s'.inst k s'.queue + timesEnded s'.inst.trace k ≤
      stackTok s.inst k (s.gs g) + queueTok s.inst k s.queue + timesEnded s.inst.trace k + add k)
    (hc : ∀ k, caps d s k + add k ≤ caps d s' k) (h1 : ∀ k n, toks s k n + add k ≤ 1) : OnceOK d s' := by
  have key : ∀ k n, toks s' k n ≤ toks s k (max n (g + 1)) + add k := by
    intro k n
    have hm := sumTo_mono (fun h => stackTok s'.inst k (s'.gs h)) (Nat.le_max_left n (g + 1))
    have hu := sumTo_update (f := fun h => stackTok s.inst k (s.gs h)) (h := fun h => stackTok s'.inst k (s'.gs h)) (g := g)
      (fun i hi => by
        show stackTok s'.inst k (s'.gs i) = stackTok s.inst k (s.gs i)
        rw [hg, goto_ne s fs hi]
        exact stackTok_ext x (fun f hf o h => ho.frames i f o hf h) k) (max n (g + 1)) (by omega)
    have hfs : stackTok s'.inst k (s'.gs g) = stackTok s'.inst k fs := by rw [hg, goto_gs, if_pos rfl]
    have := hl k
    unfold toks
    omega
  refine ⟨fun k n => ?_, fun k n => ?_⟩
  · have h2 := key k n
    have h3 := ok.cap k (max n (g + 1))
    have h4 := hc k
    omega
  · have h2 := key k n
    have h3 := h1 k (max n (g + 1))
    omega

theorem OnceOK.quiet {d : Def} {s s' : St} (ok : OnceOK d s) (ho : ObjsOK s) {g : Nat} {fs : List Fr}
    (x : Ext s.inst s'.inst) (hg : s'.gs = (s.goto g fs).gs)
    (hl : ∀ k, stackTok s'.inst k fs + queueTok s'.inst k s'.queue + timesEnded s'.inst.trace k ≤
      stackTok s.inst k (s.gs g) + queueTok s.inst k s.queue + timesEnded s.inst.trace k) : OnceOK d s' :=
  ok.move ho (fun _ => 0) x hg hl (fun k => caps_mono x k) (fun k n => ok.one k n)

/-- A task instance of goroutine `g` ends. -/
theorem OnceOK.ended {d : Def} (he : ∀ k, entrances d k ≤ 1) {s s' : St} (ok : OnceOK d s) (ho : ObjsOK s) {g o : Nat} {ob : Obj} {fs : List Fr}
    (hob : s.inst.objs[o]? = some ob) (x : Ext s.inst s'.inst) (hg : s'.gs = (s.goto g fs).gs)
    (hl : ∀ k, stackTok s'.inst k fs + queueTok s'.inst k s'.queue + timesEnded s'.inst.trace k ≤
      stackTok s.inst k (s.gs g) + queueTok s.inst k s.queue + timesEnded s.inst.trace k + outTok d ob.task k)
    (ht : objTok s.inst ob.task.id o ≤ stackTok s.inst ob.task.id (s.gs g))
    (hend : timesEnded s.inst.trace ob.task.id + 1 ≤ timesEnded s'.inst.trace ob.task.id) : OnceOK d s' := by
  refine ok.move ho (outTok d ob.task) x hg hl (fun k => ?_) (fun k n => ?_)
  · have h1 := linkCap_ended (fun i => ends_mono x i) hend k (allLinks d)
    have h2 := outTok_le d ob.task k
    have h3 : (if s.inst.handling then startTok d true k else 0) ≤ if s'.inst.handling then startTok d true k else 0 := by
      split
      · rename_i h; rw [if_pos (x.handling h)]; exact Nat.le_refl _
      · exact Nat.zero_le _
    unfold caps; omega
  · by_cases hz : outTok d ob.task k = 0
    · rw [hz]; exact ok.one k n
    · have h0 : timesEnded s.inst.trace ob.task.id = 0 := by
        have h1 := ok.one ob.task.id (g + 1)
        have h2 : objTok s.inst ob.task.id o = 1 := by unfold objTok; rw [hob]; simp
        have h3 := sumTo_le (fun g => stackTok s.inst ob.task.id (s.gs g)) (g := g) (g + 1) (by omega)
        unfold toks at h1
        omega
      have h1 := outTok_le d ob.task k
      have h2 := entrances_le (d := d) k
      have h3 := he k
      have h4 : (allLinks d).countP (fun l => decide (l.src = ob.task.id ∧ l.dst = k)) ≤ (allLinks d).countP (fun l => decide (l.dst = k)) :=
        List.countP_mono_left (fun l _ h => by simp at h ⊢; exact h.2)
      have h5 : linkCap s.inst.trace k (allLinks d) = 0 := linkCap_zero (by omega) (j := ob.task.id) (by omega) h0
      have h6 := ok.cap k n
      unfold caps at h6
      have h7 : (if s.inst.handling then startTok d true k else 0) ≤ startTok d true k := by split <;> omega
      omega

/-! ### Steps -/

theorem OnceOK.exec {d : Def} (he : ∀ k, entrances d k ≤ 1) {prio : Bool} {s s' : St} (ok : OnceOK d s) (ho : ObjsOK s) (ht : TrOK d s)
    {g : Nat} {r : Res} (h : exec prio s g r = some s') : OnceOK d s' := by
  unfold Conc.exec at h
  split at h
  · rename_i o rest hg
    have hb : Became s.inst o := ht.frames g (.run o) (by rw [hg]; exact List.mem_cons_self ..)
    have hrest : ∀ f ∈ rest, ∀ p, objOf f = some p → p < s.inst.objs.length := fun f hf p hp =>
      ho.frames g f p (by rw [hg]; exact List.mem_cons_of_mem _ hf) hp
    have hst : ∀ k, stackTok s.inst k (s.gs g) = objTok s.inst k o + stackTok s.inst k rest := fun k => by
      rw [hg, stackTok_cons]; rfl
    split at h
    · cases h
    · rename_i ob hob
      have hr : .taskStatus o ob.task .ready ∈ s.inst.trace := by
        obtain ⟨ob', h1, h2⟩ := hb
        rw [hob] at h1; cases h1; exact h2
      have hone : objTok s.inst ob.task.id o = 1 := by unfold objTok; rw [hob]; simp
      have hset : ∀ st : TaskStatus, (st = .waiting ∨ st = .done ∨ st = .failed) → Ext s.inst (s.inst.setTaskStatus o st) := fun st hst =>
        Ext.setTaskStatus' hst fun ob2 ho2 => by rw [hob] at ho2; cases ho2; exact hr
      split at h
      · cases h
        refine ok.quiet ho (g := g) (fs := rest) (.refl _) rfl (fun k => ?_)
        have := hst k
        show stackTok s.inst k rest + queueTok s.inst k s.queue + timesEnded s.inst.trace k ≤ _
        omega
      · cases h
        cases r with
        | done ev ret =>
          have x1 : Ext s.inst ((setForce s.inst ret).findLinks (s.inst.defn.toLinks ob.task)) :=
            (ext_force _ _).trans (Ext.findLinks _)
          obtain ⟨ob', ho', ht'⟩ := x1.objs o ob hob
          have x2 := x1.trans (Ext.setTaskStatus' (o := o) (Or.inr (Or.inl rfl)) fun ob2 ho2 => by
            rw [ho'] at ho2; cases ho2; rw [ht']; exact x1.mem hr)
          have hends : ∀ k, timesEnded (((setForce s.inst ret).findLinks (s.inst.defn.toLinks ob.task)).setTaskStatus o .done).trace k =
              timesEnded s.inst.trace k + objTok s.inst k o := fun k => by
            rw [ends_status, ends_findLinks, objTok_ext x1 (List.getElem?_eq_some_iff.1 hob).1 k]; rfl
          refine ok.ended he ho (g := g) (fs := doneFrames prio ev s.inst s.gen ob.task rest) hob x2 rfl (fun k => ?_) ?_ ?_
          · have h1 := doneFrames_tok prio ev s.inst (((setForce s.inst ret).findLinks (s.inst.defn.toLinks ob.task)).setTaskStatus o .done) s.gen ob.task rest k
            rw [stackTok_ext x2 hrest k] at h1
            have h2 := queueTok_ext x2 ho.queue k
            have h3 := hends k
            have h4 := hst k
            have h5 : outTok s.inst.defn ob.task k = outTok d ob.task k := by rw [ht.defn]
            show stackTok (((setForce s.inst ret).findLinks (s.inst.defn.toLinks ob.task)).setTaskStatus o .done) k _ +
              queueTok (((setForce s.inst ret).findLinks (s.inst.defn.toLinks ob.task)).setTaskStatus o .done) k s.queue +
              timesEnded (((setForce s.inst ret).findLinks (s.inst.defn.toLinks ob.task)).setTaskStatus o .done).trace k ≤ _
            omega
          · have := hst ob.task.id; omega
          · have := hends ob.task.id
            show _ ≤ timesEnded (((setForce s.inst ret).findLinks (s.inst.defn.toLinks ob.task)).setTaskStatus o .done).trace _
            omega
        | error =>
          have x1 := hset .failed (.inr (.inr rfl))
          have x2 : Ext s.inst ((s.inst.setTaskStatus o .failed).findLinks (s.inst.defn.toLinks ob.task)) :=
            x1.trans (Ext.findLinks _)
          have hends : ∀ k, timesEnded ((s.inst.setTaskStatus o .failed).findLinks (s.inst.defn.toLinks ob.task)).trace k =
              timesEnded s.inst.trace k + objTok s.inst k o := fun k => by
            rw [ends_findLinks, ends_status]; rfl
          refine ok.ended he ho (g := g) (fs := errorFrames s.inst s.gen ob.task rest) hob x2 rfl (fun k => ?_) ?_ ?_
          · have h1 := errorFrames_tok s.inst ((s.inst.setTaskStatus o .failed).findLinks (s.inst.defn.toLinks ob.task)) s.gen ob.task rest k
            rw [stackTok_ext x2 hrest k] at h1
            have h2 := queueTok_ext x2 ho.queue k
            have h3 := hends k
            have h4 := hst k
            have h5 : outTok s.inst.defn ob.task k = outTok d ob.task k := by rw [ht.defn]
            show stackTok ((s.inst.setTaskStatus o .failed).findLinks (s.inst.defn.toLinks ob.task)) k _ +
              queueTok ((s.inst.setTaskStatus o .failed).findLinks (s.inst.defn.toLinks ob.task)) k s.queue +
              timesEnded ((s.inst.setTaskStatus o .failed).findLinks (s.inst.defn.toLinks ob.task)).trace k ≤ _
            omega
          · have := hst ob.task.id; omega
          · have := hends ob.task.id
            show _ ≤ timesEnded ((s.inst.setTaskStatus o .failed).findLinks (s.inst.defn.toLinks ob.task)).trace _
            omega
        | wait =>
          have x1 := hset .waiting (.inl rfl)
          refine ok.quiet ho (g := g) (fs := rest) x1 rfl (fun k => ?_)
          have h1 := stackTok_ext x1 hrest k
          have h2 := queueTok_ext x1 ho.queue k
          have h3 := ends_status s.inst k o .waiting
          have h4 := hst k
          have h5 : (if isEndStatus .waiting = true then objTok s.inst k o else 0) = 0 := rfl
          show stackTok (s.inst.setTaskStatus o .waiting) k rest + queueTok (s.inst.setTaskStatus o .waiting) k s.queue +
            timesEnded (s.inst.setTaskStatus o .waiting).trace k ≤ _
          omega
        | again =>
          refine ok.quiet ho (g := g) (fs := rest) (.refl _) rfl (fun k => ?_)
          have h4 := hst k
          have h5 : queueTok s.inst k (s.queue ++ [o]) = queueTok s.inst k s.queue + objTok s.inst k o := by
            unfold queueTok; simp
          show stackTok s.inst k rest + queueTok s.inst k (s.queue ++ [o]) + timesEnded s.inst.trace k ≤ _
          omega
  · cases h

theorem OnceOK.pop {d : Def} {s s' : St} (ok : OnceOK d s) (ho : ObjsOK s) {g : Nat} (h : pop s g = some s') : OnceOK d s' := by
  unfold Conc.pop at h
  split at h
  · cases h
  · rename_i o q hq
    split at h
    · cases h
      refine ok.quiet ho (g := g) (fs := [.run o]) (.refl _) rfl (fun k => ?_)
      have h1 : queueTok s.inst k s.queue = objTok s.inst k o + queueTok s.inst k q := by rw [hq]; simp [queueTok]
      have h2 : stackTok s.inst k [.run o] = objTok s.inst k o := by rw [stackTok_cons]; rfl
      show stackTok s.inst k [.run o] + queueTok s.inst k q + timesEnded s.inst.trace k ≤ _
      omega
    · cases h

theorem OnceOK.next {d : Def} (he : ∀ k, entrances d k ≤ 1) {s s' : St} (ok : OnceOK d s) (ho : ObjsOK s) (ht : TrOK d s)
    {g : Nat} (h : next s g = some s') : OnceOK d s' := by
  have hrest : ∀ {f : Fr} {rest : List Fr}, s.gs g = f :: rest → ∀ f ∈ rest, ∀ p, objOf f = some p → p < s.inst.objs.length :=
    fun hg f hf p hp => ho.frames g f p (by rw [hg]; exact List.mem_cons_of_mem _ hf) hp
  have hst : ∀ {f : Fr} {rest : List Fr}, s.gs g = f :: rest → ∀ k, stackTok s.inst k (s.gs g) = frTok s.inst k f + stackTok s.inst k rest :=
    fun hg k => by rw [hg, stackTok_cons]
  /- frames that refer to nothing -/
  have plain : ∀ {s' : St} {f f' : Fr} {rest : List Fr}, s.gs g = f :: rest → Ext s.inst s'.inst → s'.gs = (s.goto g (f' :: rest)).gs →
      s'.queue = s.queue → (∀ k, frTok s'.inst k f' ≤ frTok s.inst k f) → (∀ k, timesEnded s'.inst.trace k = timesEnded s.inst.trace k) → OnceOK d s' := by
    intro s' f f' rest hg x hgs hq hf hends
    refine ok.quiet ho (g := g) (fs := f' :: rest) x hgs (fun k => ?_)
    have h1 := stackTok_ext x (hrest hg) k
    have h2 := queueTok_ext x ho.queue k
    have h3 := hst hg k
    have h4 := hf k
    have h5 := hends k
    rw [stackTok_cons, hq]
    omega
  have drop : ∀ {s' : St} {f : Fr} {rest : List Fr}, s.gs g = f :: rest → Ext s.inst s'.inst → s'.gs = (s.goto g rest).gs →
      s'.queue = s.queue → (∀ k, timesEnded s'.inst.trace k = timesEnded s.inst.trace k) → OnceOK d s' := by
    intro s' f rest hg x hgs hq hends
    refine ok.quiet ho (g := g) (fs := rest) x hgs (fun k => ?_)
    have h1 := stackTok_ext x (hrest hg) k
    have h2 := queueTok_ext x ho.queue k
    have h3 := hst hg k
    have h5 := hends k
    rw [hq]
    omega
  unfold Conc.next at h
  split at h
  · cases h
  · cases h
  · rename_i rest hg
    cases h
    exact drop hg (.refl _) rfl rfl (fun _ => rfl)
  · rename_i gen r rs rest hg
    cases h
    have hr := ht.frames g (.rows gen (r :: rs)) (by rw [hg]; exact List.mem_cons_self ..)
    have x : Ext s.inst (setPtr s gen r) := by
      unfold setPtr
      split
      · exact Ext.setLink fun _ => hr r (List.mem_cons_self ..)
      · exact .refl _
    refine plain (f' := .rows gen rs) hg x rfl rfl (fun _ => Nat.le_refl _) (fun k => ?_)
    show timesEnded (setPtr s gen r).trace k = _
    unfold setPtr
    split
    · show timesEnded (_ :: s.inst.trace) k = _
      unfold timesEnded; rw [List.countP_cons]; rfl
    · rfl
  · rename_i t n es rest hg
    cases h
    unfold finishStep
    split
    · refine plain (f' := .release t) hg (Ext.setFlowStatus _ (by simp)) rfl rfl (fun _ => Nat.zero_le _) (fun k => ?_)
      show timesEnded (_ :: s.inst.trace) k = _
      unfold timesEnded; rw [List.countP_cons]; rfl
    · refine ok.quiet ho (g := g) (fs := .lock es :: .release t :: rest) (.refl _) rfl (fun k => ?_)
      have h3 := hst hg k
      have h4 : frTok s.inst k (.finish t n es) = entTok k es := rfl
      have h5 : stackTok s.inst k (.lock es :: .release t :: rest) = entTok k es + (0 + stackTok s.inst k rest) := by
        rw [stackTok_cons, stackTok_cons]; rfl
      show stackTok s.inst k (.lock es :: .release t :: rest) + queueTok s.inst k s.queue + timesEnded s.inst.trace k ≤ _
      omega
  · rename_i rest hg
    cases h
    unfold failStep
    split
    · refine drop hg (Ext.setFlowStatus _ (by simp)) rfl rfl (fun k => ?_)
      show timesEnded (_ :: s.inst.trace) k = _
      unfold timesEnded; rw [List.countP_cons]; rfl
    · rename_i hh
      split
      · have x : Ext s.inst ({ s.inst with handling := true } : Inst).clearTasks := Ext.setHandling.trans Ext.clear
        have hends : ∀ k, timesEnded ({ s.inst with handling := true } : Inst).clearTasks.trace k = timesEnded s.inst.trace k := fun k => by
          show timesEnded (_ :: s.inst.trace) k = _
          unfold timesEnded; rw [List.countP_cons]; rfl
        refine ok.move ho (g := g) (fs := .lock (Inst.startEntries s.inst.defn true) :: rest) (startTok d true) x rfl (fun k => ?_) (fun k => ?_) (fun k n => ?_)
        · have h1 := stackTok_ext x (hrest hg) k
          have h2 := queueTok_ext x ho.queue k
          have h3 := hst hg k
          have h5 := hends k
          have h6 : frTok ({ s.inst with handling := true } : Inst).clearTasks k (.lock (Inst.startEntries s.inst.defn true)) = startTok d true k := by
            rw [ht.defn]; rfl
          show stackTok ({ s.inst with handling := true } : Inst).clearTasks k (.lock (Inst.startEntries s.inst.defn true) :: rest) +
            queueTok ({ s.inst with handling := true } : Inst).clearTasks k s.queue + timesEnded ({ s.inst with handling := true } : Inst).clearTasks.trace k ≤ _
          rw [stackTok_cons]
          omega
        · have h1 := linkCap_mono (fun j => ends_mono x j) k (allLinks d)
          unfold caps
          rw [if_neg hh]
          show _ ≤ startTok d false k + startTok d true k + linkCap ({ s.inst with handling := true } : Inst).clearTasks.trace k (allLinks d)
          omega
        · by_cases hz : startTok d true k = 0
          · rw [hz]; exact ok.one k n
          · have h1 := entrances_le (d := d) k
            have h2 := he k
            have h3 := ok.cap k n
            unfold caps at h3
            rw [if_neg hh] at h3
            have h4 : linkCap s.inst.trace k (allLinks d) = 0 := by
              have h0 : (allLinks d).countP (fun l => decide (l.dst = k)) = 0 := by omega
              exact linkCap_none h0
            omega
      · refine drop hg (Ext.setHandling.trans (Ext.setFlowStatus _ (by simp))) rfl rfl (fun k => ?_)
        show timesEnded (_ :: s.inst.trace) k = _
        unfold timesEnded; rw [List.countP_cons]; rfl
  · rename_i es rest hg
    split at h
    · cases h
    · cases h
      exact plain (f' := .enter es) hg (.refl _) rfl rfl (fun _ => Nat.le_refl _) (fun _ => rfl)
  · rename_i rest hg
    cases h
    exact drop hg (.refl _) rfl rfl (fun _ => rfl)
  · rename_i x xs rest hg
    cases h
    unfold testStep
    split
    · refine plain (f' := .enter xs) hg (Ext.findOrCreateTask _) rfl rfl (fun k => ?_) (fun k => ends_create _ _ _)
      show entTok k xs ≤ entTok k (x :: xs)
      rw [entTok_cons]; omega
    · refine plain (f' := .test (s.inst.findOrCreateTask x.task).2 xs) hg (Ext.findOrCreateTask _) rfl rfl (fun k => ?_) (fun k => ends_create _ _ _)
      show objTok (s.inst.findOrCreateTask x.task).1 k (s.inst.findOrCreateTask x.task).2 + entTok k xs ≤ entTok k (x :: xs)
      rw [objTok_create ht.ok, entTok_cons]; omega
  · rename_i o es rest hg
    split at h
    · cases h
    · rename_i ob hob
      cases h
      have hlt := (List.getElem?_eq_some_iff.1 hob).1
      have hx := (enter_ext hob).1
      have h0 : ∀ k, timesEnded ((s.inst.setTaskStatus o .entered).findLinks (s.inst.defn.fromLinks ob.task)).trace k = timesEnded s.inst.trace k := fun k => by
        rw [ends_findLinks, ends_status]; rfl
      have hx0 : Ext s.inst ((s.inst.setTaskStatus o .entered).findLinks (s.inst.defn.fromLinks ob.task)) := Ext.enter.trans (Ext.findLinks _)
      cases hdec : (enterObj s.inst o ob.task).2 with
      | notReady =>
        rw [hdec] at hx
        have hc : enterCase s.inst ob.task = .notReady := hdec
        refine plain (f' := .enter es) hg hx rfl rfl (fun k => ?_) (fun k => ?_)
        · show entTok k es ≤ objTok s.inst k o + entTok k es
          omega
        · show timesEnded (afterEnter _ o (enterCase s.inst ob.task)).trace k = _
          rw [hc]; exact h0 k
      | eval =>
        rw [hdec] at hx
        have hc : enterCase s.inst ob.task = .eval := hdec
        refine plain (f' := .push o es) hg hx rfl rfl (fun k => ?_) (fun k => ?_)
        · show objTok (enteredInst (enterObj s.inst o ob.task).1 ob.task .eval) k o + entTok k es ≤ objTok s.inst k o + entTok k es
          rw [objTok_ext hx hlt]; exact Nat.le_refl _
        · show timesEnded (afterEnter _ o (enterCase s.inst ob.task)).trace k = _
          rw [hc]
          show timesEnded (Inst.setTaskStatus _ o .ready).trace k = _
          rw [ends_status, h0 k]; rfl
      | skip =>
        rw [hdec] at hx
        have hc : enterCase s.inst ob.task = .skip := hdec
        have hends : ∀ k, timesEnded (enteredInst (enterObj s.inst o ob.task).1 ob.task .skip).trace k = timesEnded s.inst.trace k + objTok s.inst k o := fun k => by
          show timesEnded (Inst.findLinks (afterEnter _ o (enterCase s.inst ob.task)) _).trace k = _
          rw [ends_findLinks, hc]
          show timesEnded (Inst.setTaskStatus _ o .skipped).trace k = _
          rw [ends_status, h0 k, objTok_ext hx0 hlt]; rfl
        have hone : objTok s.inst ob.task.id o = 1 := by unfold objTok; rw [hob]; simp
        have h4 : ∀ k, frTok s.inst k (.test o es) = objTok s.inst k o + entTok k es := fun _ => rfl
        refine ok.ended he ho (g := g) (fs := enteredFrames s.inst s.gen o ob.task es rest .skip) hob hx rfl (fun k => ?_) ?_ ?_
        · have h1 := stackTok_ext hx (hrest hg) k
          have h2 := queueTok_ext hx ho.queue k
          have h3 := hst hg k
          have h5 := hends k
          have h6 := h4 k
          have h7 : stackTok (enteredInst (enterObj s.inst o ob.task).1 ob.task .skip) k (enteredFrames s.inst s.gen o ob.task es rest .skip) =
              0 + (outTok d ob.task k + (entTok k es + stackTok (enteredInst (enterObj s.inst o ob.task).1 ob.task .skip) k rest)) := by
            unfold enteredFrames
            rw [stackTok_cons, stackTok_cons, stackTok_cons]
            have : entTok k (rowEntries ob.task.eh (skipRows (s.inst.defn.toLinks ob.task))) = outTok d ob.task k := by
              rw [rowEntries_tok (skipRows_links _), ht.defn]; rfl
            show 0 + (entTok k _ + (entTok k es + _)) = _
            rw [this]
          show stackTok (enteredInst (enterObj s.inst o ob.task).1 ob.task .skip) k _ +
            queueTok (enteredInst (enterObj s.inst o ob.task).1 ob.task .skip) k s.queue +
            timesEnded (enteredInst (enterObj s.inst o ob.task).1 ob.task .skip).trace k ≤ _
          omega
        · have h3 := hst hg ob.task.id
          have h6 := h4 ob.task.id
          omega
        · have := hends ob.task.id
          show _ ≤ timesEnded (enteredInst (enterObj s.inst o ob.task).1 ob.task .skip).trace _
          omega
  · rename_i o es rest hg
    cases h
    refine ok.quiet ho (g := g) (fs := .enter es :: rest) (.refl _) rfl (fun k => ?_)
    have h3 := hst hg k
    have h4 : frTok s.inst k (.push o es) = objTok s.inst k o + entTok k es := rfl
    have h5 : queueTok s.inst k (s.queue ++ [o]) = queueTok s.inst k s.queue + objTok s.inst k o := by
      unfold queueTok; simp
    have h6 : stackTok s.inst k (.enter es :: rest) = entTok k es + stackTok s.inst k rest := stackTok_cons ..
    show stackTok s.inst k (.enter es :: rest) + queueTok s.inst k (s.queue ++ [o]) + timesEnded s.inst.trace k ≤ _
    omega
  · rename_i t rest hg
    cases h
    exact drop hg (Ext.release _) rfl rfl (fun k => ends_release _ _ _)

theorem OnceOK.reach {prio : Bool} {d : Def} {uri : String} (he : ∀ k, entrances d k ≤ 1) {s : St} (h : Reach prio d uri s) : OnceOK d s := by
  induction h with
  | init => exact OnceOK.init he uri
  | step hr hs ih =>
    rename_i l
    cases l with
    | pop g => exact ih.pop (ObjsOK.reach hr) hs
    | exec g r => exact ih.exec he (ObjsOK.reach hr) (TrOK.reach hr) hs
    | next g => exact ih.next he (ObjsOK.reach hr) (TrOK.reach hr) hs

end Flow.Conc
