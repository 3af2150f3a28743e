import Verif.Proofs.ConcPlain

/-
A bound on the number of steps in concurrent mode before the error handler is started.
-/

namespace Flow.Conc

open Spec

/-- What a frame can still cost, apart from the tasks it begins and ends. -/
def cost : Fr → Nat
  | .run _ => 1
  | .rows _ rs => rs.length + 1
  | .finish _ _ es => 2 * es.length + 4
  | .fail => 1
  | .lock es => 2 * es.length + 2
  | .enter es => 2 * es.length + 1
  | .test _ es => 2 * es.length + 2
  | .push _ es => 2 * es.length + 4
  | .release _ => 1

/-- The number of links that leave a task of the main flow. -/
def outs (d : Def) (k : TaskId) : Nat := (d.toLinks ⟨false, k⟩).length

/-- What a task has paid. -/
def paid (d : Def) (tr : List Flow.Ev) (k : TaskId) : Nat := 3 * timesBegun tr k + (4 * outs d k + 5) * timesEnded tr k

def funds (d : Def) (tr : List Flow.Ev) : Nat := (d.main.tasks.map (fun t => paid d tr t.id)).sum

def isAgainEv : Ev → Bool
  | .again _ => true
  | _ => false

/-- The number of evaluations that were repeated. -/
def agains (lg : List Ev) : Nat := lg.countP isAgainEv

theorem sum_raise {α : Type} {f g : α → Nat} {c : Nat} {y : α} : ∀ {l : List α}, (∀ x, f x ≤ g x) → y ∈ l → f y + c ≤ g y →
    (l.map f).sum + c ≤ (l.map g).sum
  | [], _, hy, _ => nomatch hy
  | x :: l, h, hy, hc => by
    have mono : ∀ l : List α, (l.map f).sum ≤ (l.map g).sum := by
      intro l
      induction l with
      | nil => exact Nat.le_refl _
      | cons a l ih =>
        have := h a
        simp only [List.map_cons, List.sum_cons]
        omega
    simp only [List.map_cons, List.sum_cons]
    rcases List.mem_cons.1 hy with e | hy
    · subst e
      have := mono l
      omega
    · have h1 := sum_raise h hy hc
      have := h x
      omega

theorem paid_mono {I J : Inst} (x : Ext I J) (d : Def) (k : TaskId) : paid d I.trace k ≤ paid d J.trace k := by
  have h1 := begun_mono x k
  have h2 := Nat.mul_le_mul_left (4 * outs d k + 5) (ends_mono x k)
  unfold paid
  omega

theorem funds_mono {I J : Inst} (x : Ext I J) (d : Def) : funds d I.trace ≤ funds d J.trace := by
  unfold funds
  cases h : d.main.tasks with
  | nil => exact Nat.le_refl _
  | cons t ts =>
    exact sum_raise (f := fun t => paid d I.trace t.id) (g := fun t => paid d J.trace t.id) (c := 0) (l := t :: ts) (y := t)
      (fun t => paid_mono x d t.id) (List.mem_cons_self ..) (paid_mono x d t.id)

/-- A task begins (`a`) or ends (`b`). -/
theorem funds_raise {I J : Inst} (x : Ext I J) {d : Def} {k : TaskId} (hk : ∃ t ∈ d.main.tasks, t.id = k) {a b : Nat}
    (h1 : timesBegun I.trace k + a ≤ timesBegun J.trace k) (h2 : timesEnded I.trace k + b ≤ timesEnded J.trace k) :
    funds d I.trace + (3 * a + (4 * outs d k + 5) * b) ≤ funds d J.trace := by
  obtain ⟨t, ht, rfl⟩ := hk
  refine sum_raise (fun t => paid_mono x d t.id) ht ?_
  have h3 := Nat.mul_le_mul_left (4 * outs d t.id + 5) h2
  rw [Nat.mul_add] at h3
  unfold paid
  omega

theorem length_pairs (rows : List (LinkDef × LinkStatus × Nat)) : (doneSets rows).length ≤ 2 * rows.length := by
  unfold doneSets
  rw [List.length_append]
  induction rows with
  | nil => exact Nat.le_refl _
  | cons r rows ih =>
    rw [List.flatMap_cons, List.flatMap_cons, List.length_append, List.length_append, List.length_cons]
    have : (rowSets r).length + (otherSets r).length ≤ 2 := by
      unfold rowSets otherSets
      by_cases h1 : r.2.1 = .true
      · by_cases h2 : r.1.type = .otherwise
        · rw [if_neg (fun h => h.2 h2), if_pos ⟨h1, h2⟩]; exact Nat.le_refl _
        · rw [if_pos ⟨h1, h2⟩, if_neg (fun h => h2 h.2)]; exact Nat.le_refl _
      · rw [if_neg (fun h => h1 h.1), if_neg (fun h => h1 h.1)]; exact Nat.le_succ _
    omega

theorem length_sort (es : List TaskEntry) : (sortEntries es).length = es.length := (sortEntries_perm es).length_eq

theorem length_rowEntries (eh : Bool) (rows : List (LinkDef × LinkStatus × Nat)) : (rowEntries eh rows).length = rows.length := by
  unfold rowEntries; rw [List.length_map]

theorem doneLoop_length (prio : Bool) (ev : LinkDef → ExprOut) : ∀ (ls : List LinkDef) (a : DoneAcc) {p : String × DoneAcc},
    doneLoop prio ev a ls = .error p → p.2.rows.length ≤ a.rows.length + ls.length
  | [], a, p, h => nomatch h
  | l :: ls, a, p, h => by
    unfold doneLoop at h
    split at h
    · cases h
      simp only [List.length_append, List.length_cons, List.length_nil]
      omega
    · rename_i a' ha
      have h1 := doneLoop_length prio ev ls a' h
      have h2 : a'.rows.length = a.rows.length + 1 := by
        unfold doneIter at ha
        split at ha
        · cases ha; simp
        · cases ha; simp
        · cases ha; simp
        · cases ha; simp
        · split at ha
          · cases ha
          · cases ha; simp
          · cases ha; simp
      rw [List.length_cons]
      omega

theorem doneRows_length {prio : Bool} {ev : LinkDef → ExprOut} {ls : List LinkDef} {p : String × List (LinkDef × LinkStatus × Nat)}
    (h : doneRows prio ev ls = .error p) : p.2.length ≤ ls.length := by
  unfold doneRows at h
  split at h
  · rename_i m a ha
    cases h
    have := doneLoop_length prio ev ls {} ha
    simpa using this
  · cases h

theorem cost_done (prio : Bool) (ev : LinkDef → ExprOut) (I : Inst) (gen : LinkId → Nat) (t : TaskRef) (rest : List Fr) :
    wSum cost (doneFrames prio ev I gen t rest) ≤ 4 * (I.defn.toLinks t).length + 5 + wSum cost rest := by
  unfold doneFrames
  cases hx : doneRows prio ev (I.defn.toLinks t) with
  | error p =>
    dsimp only
    have h1 := length_pairs p.2
    have h2 : p.2.length ≤ (I.defn.toLinks t).length := doneRows_length hx
    simp only [wSum_cons, cost]
    omega
  | ok rows =>
    dsimp only
    have h1 := length_pairs rows
    have h2 : rows.length = (I.defn.toLinks t).length := by
      rw [← (GraphM.doneRows_rowsOK hx).1.links, List.length_map]
    simp only [wSum_cons, cost, length_sort, length_rowEntries]
    omega

theorem cost_error (I : Inst) (gen : LinkId → Nat) (t : TaskRef) (rest : List Fr) :
    wSum cost (errorFrames I gen t rest) ≤ 4 * (I.defn.toLinks t).length + 5 + wSum cost rest := by
  unfold errorFrames
  split
  · simp only [wSum_cons, cost]; omega
  · rename_i rows hx
    have h2 : rows.length = (I.defn.toLinks t).length := by
      unfold errorRows at hx
      split at hx
      · cases hx; rw [List.length_map]
      · cases hx
    simp only [wSum_cons, cost, length_sort, length_rowEntries, plainSets, List.length_map]
    omega

/-- A step costs one, and is paid for. -/
def Pays (d : Def) (s s' : St) : Prop :=
  ∃ g fs, s'.gs = (s.goto g fs).gs ∧
    wSum cost fs + 2 * s'.queue.length + 1 + funds d s.inst.trace + 2 * agains s.log ≤
      wSum cost (s.gs g) + 2 * s.queue.length + funds d s'.inst.trace + 2 * agains s'.log

theorem pays_same {d : Def} {s s' : St} {g : Nat} {fs : List Fr} (x : Ext s.inst s'.inst) (hg : s'.gs = (s.goto g fs).gs) (hl : s'.log = s.log)
    (h : wSum cost fs + 2 * s'.queue.length + 1 ≤ wSum cost (s.gs g) + 2 * s.queue.length) : Pays d s s' := by
  have := funds_mono x d
  refine ⟨g, fs, hg, ?_⟩
  rw [hl]
  omega

theorem Pays.exec {d : Def} {prio : Bool} {s s' : St} (ht : TrOK d s) (he : EhOK s) (hm : RefsOK (InMain d) s) {g : Nat} {r : Res}
    (h : Conc.exec prio s g r = some s') : Pays d s s' := by
  have x : Ext s.inst s'.inst := step_ext ht (l := .exec g r) h
  unfold Conc.exec at h
  split at h
  · rename_i o rest hg
    split at h
    · cases h
    · rename_i ob hob
      have hk := hm.objs o ob hob (he.objs o ob hob)
      have hout : (s.inst.defn.toLinks ob.task).length = outs d ob.task.id := by
        unfold outs
        rw [ht.defn]
        have := he.objs o ob hob
        cases hx : ob.task with
        | mk e k => rw [hx] at this; cases this; rfl
      split at h
      · cases h
        refine pays_same (g := g) (fs := rest) x rfl rfl ?_
        rw [hg]
        simp only [wSum_cons, cost]
        show _ + 2 * s.queue.length + 1 ≤ _
        omega
      · cases h
        cases r with
        | done ev ret =>
          have h1 := cost_done prio ev s.inst s.gen ob.task rest
          have h2 := funds_raise (a := 0) (b := 1) x hk (begun_mono x _) (by
            show _ ≤ timesEnded (((setForce s.inst ret).findLinks (s.inst.defn.toLinks ob.task)).setTaskStatus o .done).trace ob.task.id
            rw [ends_status, ends_findLinks]
            have hx : Ext s.inst ((setForce s.inst ret).findLinks (s.inst.defn.toLinks ob.task)) := (ext_force _ _).trans (Ext.findLinks _)
            rw [objTok_ext hx (List.getElem?_eq_some_iff.1 hob).1, objTok_one hob, if_pos rfl]
            exact Nat.le_refl _)
          refine ⟨g, _, rfl, ?_⟩
          rw [hg]
          simp only [wSum_cons, cost]
          rw [hout] at h1
          show _ + 2 * s.queue.length + 1 + _ + 2 * agains s.log ≤ _ + 2 * s.queue.length + _ + 2 * agains s.log
          omega
        | error =>
          have h1 := cost_error s.inst s.gen ob.task rest
          have h2 := funds_raise (a := 0) (b := 1) x hk (begun_mono x _) (by
            show _ ≤ timesEnded ((s.inst.setTaskStatus o .failed).findLinks (s.inst.defn.toLinks ob.task)).trace ob.task.id
            rw [ends_findLinks, ends_status, objTok_one hob, if_pos rfl]
            exact Nat.le_refl _)
          refine ⟨g, _, rfl, ?_⟩
          rw [hg]
          simp only [wSum_cons, cost]
          rw [hout] at h1
          show _ + 2 * s.queue.length + 1 + _ + 2 * agains s.log ≤ _ + 2 * s.queue.length + _ + 2 * agains s.log
          omega
        | wait =>
          refine pays_same (g := g) (fs := rest) x rfl rfl ?_
          rw [hg]
          simp only [wSum_cons, cost]
          show _ + 2 * s.queue.length + 1 ≤ _
          omega
        | again =>
          refine ⟨g, rest, rfl, ?_⟩
          rw [hg]
          simp only [wSum_cons, cost]
          have h1 : agains (.again o :: s.log) = agains s.log + 1 := by unfold agains; rw [List.countP_cons]; rfl
          show _ + 2 * (s.queue ++ [o]).length + 1 + funds d s.inst.trace + 2 * agains s.log ≤ _ + 2 * s.queue.length + funds d s.inst.trace + 2 * agains (.again o :: s.log)
          rw [h1, List.length_append, List.length_singleton]
          omega
  · cases h

theorem Pays.pop {d : Def} {s s' : St} {g : Nat} (h : Conc.pop s g = some s') : Pays d s s' := by
  unfold Conc.pop at h
  split at h
  · cases h
  · rename_i o q hq
    split at h
    · rename_i hc
      cases h
      have hg : s.gs g = [] := by simpa using hc.2.2.1
      refine pays_same (g := g) (fs := [.run o]) (.refl _) rfl rfl ?_
      rw [hg, hq]
      show 1 + 0 + 2 * q.length + 1 ≤ 0 + 2 * (o :: q).length
      rw [List.length_cons]
      omega
    · cases h

theorem Pays.next {d : Def} {s s' : St} (ht : TrOK d s) (he : EhOK s) (hm : RefsOK (InMain d) s) {g : Nat} (hn : NoHandler d s')
    (h : Conc.next s g = some s') : Pays d s s' := by
  have x : Ext s.inst s'.inst := step_ext (prio := true) ht (l := .next g) h
  unfold Conc.next at h
  split at h
  · cases h
  · cases h
  · rename_i gen rest hg
    cases h
    refine pays_same (g := g) (fs := rest) x rfl rfl ?_
    rw [hg]
    simp only [wSum_cons, cost, St.goto, List.length_nil]
    omega
  · rename_i gen r rs rest hg
    cases h
    refine pays_same (g := g) (fs := .rows gen rs :: rest) x rfl rfl ?_
    rw [hg]
    simp only [wSum_cons, cost, St.goto, List.length_cons]
    omega
  · rename_i t n es rest hg
    cases h
    unfold finishStep at x ⊢
    split
    · rename_i hc
      rw [if_pos hc] at x
      refine pays_same (g := g) (fs := .release t :: rest) x rfl rfl ?_
      rw [hg]
      simp only [wSum_cons, cost, St.goto]
      omega
    · rename_i hc
      rw [if_neg hc] at x
      refine pays_same (g := g) (fs := .lock es :: .release t :: rest) x rfl rfl ?_
      rw [hg]
      simp only [wSum_cons, cost, St.goto]
      omega
  · rename_i rest hg
    cases h
    unfold failStep at hn x ⊢
    split
    · rename_i h1
      rw [if_pos h1] at x
      refine pays_same (g := g) (fs := rest) x rfl rfl ?_
      rw [hg]
      simp only [wSum_cons, cost, St.goto]
      omega
    · rename_i h1
      rw [if_neg h1] at hn x
      split
      · rename_i h2
        rw [if_pos h2] at hn
        rcases hn with h3 | h3
        · cases h3
        · rw [ht.defn, h3] at h2; cases h2
      · rename_i h2
        rw [if_neg h2] at x
        refine pays_same (g := g) (fs := rest) x rfl rfl ?_
        rw [hg]
        simp only [wSum_cons, cost, St.goto]
        omega
  · rename_i es rest hg
    split at h
    · cases h
    · cases h
      refine pays_same (g := g) (fs := .enter es :: rest) x rfl rfl ?_
      rw [hg]
      simp only [wSum_cons, cost, St.goto]
      omega
  · rename_i rest hg
    cases h
    refine pays_same (g := g) (fs := rest) x rfl rfl ?_
    rw [hg]
    simp only [wSum_cons, cost, St.goto, List.length_nil]
    omega
  · rename_i y ys rest hg
    cases h
    refine pays_same (g := g) x rfl rfl ?_
    rw [hg]
    split
    · simp only [wSum_cons, cost, List.length_cons]
      show _ + 2 * s.queue.length + 1 ≤ _
      omega
    · simp only [wSum_cons, cost, List.length_cons]
      show _ + 2 * s.queue.length + 1 ≤ _
      omega
  · rename_i o es rest hg
    split at h
    · cases h
    · rename_i ob hob
      cases h
      have hk := hm.objs o ob hob (he.objs o ob hob)
      have hlt := (List.getElem?_eq_some_iff.1 hob).1
      have x0 : Ext s.inst ((s.inst.setTaskStatus o .entered).findLinks (s.inst.defn.fromLinks ob.task)) := Ext.enter.trans (Ext.findLinks _)
      cases hdec : (enterObj s.inst o ob.task).2 with
      | notReady =>
        rw [hdec] at x
        refine pays_same (g := g) (fs := .enter es :: rest) x rfl rfl ?_
        rw [hg]
        simp only [wSum_cons, cost, St.goto]
        omega
      | eval =>
        have hc : enterCase s.inst ob.task = .eval := hdec
        rw [hdec] at x
        have h2 := funds_raise (a := 1) (b := 0) x hk (by
          show _ ≤ timesBegun (afterEnter _ o (enterCase s.inst ob.task)).trace ob.task.id
          rw [hc]
          show _ ≤ timesBegun (((s.inst.setTaskStatus o .entered).findLinks (s.inst.defn.fromLinks ob.task)).setTaskStatus o .ready).trace ob.task.id
          rw [begun_status, begun_findLinks, begun_status, objTok_ext x0 hlt, objTok_one hob, if_pos rfl]
          exact Nat.le_refl _) (ends_mono x _)
        refine ⟨g, .push o es :: rest, rfl, ?_⟩
        rw [hg]
        simp only [wSum_cons, cost]
        show _ + 2 * s.queue.length + 1 + _ + 2 * agains s.log ≤ _ + 2 * s.queue.length + _ + 2 * agains s.log
        omega
      | skip =>
        have hc : enterCase s.inst ob.task = .skip := hdec
        rw [hdec] at x
        have hout : (s.inst.defn.toLinks ob.task).length = outs d ob.task.id := by
          unfold outs
          rw [ht.defn]
          have := he.objs o ob hob
          cases hx : ob.task with
          | mk e k => rw [hx] at this; cases this; rfl
        have h2 := funds_raise (a := 1) (b := 1) x hk (by
          show _ ≤ timesBegun ((afterEnter _ o (enterCase s.inst ob.task)).findLinks _).trace ob.task.id
          rw [hc, begun_findLinks]
          show _ ≤ timesBegun (((s.inst.setTaskStatus o .entered).findLinks (s.inst.defn.fromLinks ob.task)).setTaskStatus o .skipped).trace ob.task.id
          rw [begun_status, begun_findLinks, begun_status, objTok_ext x0 hlt, objTok_one hob, if_pos rfl]
          exact Nat.le_refl _) (by
          show _ ≤ timesEnded ((afterEnter _ o (enterCase s.inst ob.task)).findLinks _).trace ob.task.id
          rw [hc, ends_findLinks]
          show _ ≤ timesEnded (((s.inst.setTaskStatus o .entered).findLinks (s.inst.defn.fromLinks ob.task)).setTaskStatus o .skipped).trace ob.task.id
          rw [ends_status, ends_findLinks, ends_status, objTok_ext x0 hlt, objTok_one hob, if_pos rfl]
          exact Nat.le_refl _)
        have h3 : (skipRows (s.inst.defn.toLinks ob.task)).length = (s.inst.defn.toLinks ob.task).length := by unfold skipRows; rw [List.length_map]
        refine ⟨g, _, rfl, ?_⟩
        rw [hg]
        show wSum cost (.rows _ (plainSets _) :: .finish _ _ (rowEntries _ _) :: .enter es :: rest) + _ + _ + _ + _ ≤ _
        simp only [wSum_cons, cost, length_rowEntries, plainSets, List.length_map]
        rw [h3, hout]
        show _ + 2 * s.queue.length + 1 + _ + 2 * agains s.log ≤ _ + 2 * s.queue.length + _ + 2 * agains s.log
        omega
  · rename_i o es rest hg
    cases h
    refine ⟨g, .enter es :: rest, rfl, ?_⟩
    rw [hg]
    simp only [wSum_cons, cost]
    show _ + 2 * (s.queue ++ [o]).length + 1 + funds d s.inst.trace + 2 * agains s.log ≤ _ + 2 * s.queue.length + funds d s.inst.trace + 2 * agains (.entered o :: s.log)
    have h1 : agains (.entered o :: s.log) = agains s.log := by unfold agains; rw [List.countP_cons]; rfl
    rw [h1, List.length_append, List.length_singleton]
    omega
  · rename_i t rest hg
    cases h
    refine pays_same (g := g) (fs := rest) x rfl rfl ?_
    rw [hg]
    simp only [wSum_cons, cost]
    show _ + 2 * s.queue.length + 1 ≤ _
    omega

/-- After `n` steps. -/
def Budget (d : Def) (n : Nat) (s : St) : Prop :=
  ∀ m, sumTo (fun h => wSum cost (s.gs h)) m + (2 * s.queue.length + n) ≤ 2 * d.main.tasks.length + 2 + funds d s.inst.trace + 2 * agains s.log

theorem Budget.init (d : Def) (uri : String) : Budget d 0 (init d uri) := by
  intro m
  have h1 := sumTo_mono (fun h => wSum cost ((Conc.init d uri).gs h)) (Nat.le_max_left m 1)
  have h2 := sumTo_update (f := fun _ => 0) (h := fun h => wSum cost ((Conc.init d uri).gs h)) (g := 0) (fun i hi => by
    show wSum _ (if i = 0 then [Fr.lock (Inst.startEntries d false)] else []) = 0
    rw [if_neg hi]; rfl) (max m 1) (by omega)
  have h3 : ∀ n, sumTo (fun _ => 0) n = 0 := by
    intro n
    induction n with
    | zero => rfl
    | succ n ih => unfold sumTo; rw [ih]
  rw [h3] at h2
  have h4 : wSum cost ((Conc.init d uri).gs 0) = 2 * (Inst.startEntries d false).length + 2 := rfl
  have h5 : (Inst.startEntries d false).length ≤ d.main.tasks.length := by
    unfold Inst.startEntries
    rw [List.length_map]
    exact List.length_filter_le ..
  show _ + (2 * 0 + 0) ≤ _ + 2 * 0
  omega

theorem Budget.step {d : Def} {n : Nat} {s s' : St} (b : Budget d n s) (p : Pays d s s') : Budget d (n + 1) s' := by
  obtain ⟨g, fs, hg, hp⟩ := p
  intro m
  refine tally (w := cost) (w' := cost) hg (fun _ _ _ => rfl) b ?_ m
  omega

theorem NoHandler.first {prio : Bool} {d : Def} {uri : String} : ∀ (ls : List Label) {s s' : St}, Reach prio d uri s →
    Conc.runs prio s ls = some s' → NoHandler d s' → NoHandler d s
  | [], s, s', _, h, hn => by cases h; exact hn
  | l :: ls, s, s', hr, h, hn => by
    unfold Conc.runs at h
    cases hs : Conc.step prio s l with
    | none => rw [hs] at h; cases h
    | some s1 =>
      rw [hs] at h
      exact (NoHandler.first ls (.step hr hs) h hn).before (TrOK.reach hr) hs

theorem Budget.runs {prio : Bool} {d : Def} (wf : WellFormed d.main) {uri : String} : ∀ (ls : List Label) {n : Nat} {s s' : St}, Reach prio d uri s → Budget d n s →
    Conc.runs prio s ls = some s' → NoHandler d s' → Budget d (n + ls.length) s' ∧ NoHandler d s
  | [], n, s, s', _, b, h, hn => by cases h; exact ⟨b, hn⟩
  | l :: ls, n, s, s', hr, b, h, hn => by
    unfold Conc.runs at h
    cases hs : Conc.step prio s l with
    | none => rw [hs] at h; cases h
    | some s1 =>
      rw [hs] at h
      have h : Conc.runs prio s1 ls = some s' := h
      have ht := TrOK.reach hr
      have hn1 : NoHandler d s1 := NoHandler.first ls (.step hr hs) h hn
      have hn0 := hn1.before ht hs
      have eh := (BeginOK.reach wf hr hn0).eh
      have hm := InMain.reach (d := d) wf.dst hr
      have p : Pays d s s1 := by
        cases l with
        | pop g => exact Pays.pop hs
        | exec g r => exact Pays.exec ht eh hm hs
        | next g => exact Pays.next ht eh hm hn1 hs
      have h1 := (Budget.runs wf ls (.step hr hs) (b.step p) h hn).1
      refine ⟨?_, hn0⟩
      rw [List.length_cons, Nat.add_comm ls.length, ← Nat.add_assoc]
      exact h1

/-- Every link leaves one task. -/
theorem sum_outs {d : Def} (wf : WellFormed d.main) : (d.main.tasks.map (fun t => outs d t.id)).sum ≤ d.main.links.length := by
  have h1 : ∀ k, outs d k = d.main.links.countP (fun l => l.src = k) := by
    intro k
    show (d.main.links.filter _).length = _
    rw [List.countP_eq_length_filter]
  have key : ∀ ls : List LinkDef, (d.main.tasks.map (fun t => ls.countP (fun l => l.src = t.id))).sum ≤ ls.length := by
    intro ls
    induction ls with
    | nil =>
      have : ∀ ts : List TaskDef, (ts.map (fun t => ([] : List LinkDef).countP (fun l => decide (l.src = t.id)))).sum = 0 := by
        intro ts
        induction ts with
        | nil => rfl
        | cons t ts ih => rw [List.map_cons, List.sum_cons, ih]; rfl
      rw [this]; exact Nat.le_refl _
    | cons l ls ih =>
      have one : ∀ ts : List TaskDef, (ts.map (·.id)).Nodup → (ts.map (fun t => (l :: ls).countP (fun l => decide (l.src = t.id)))).sum ≤
          (ts.map (fun t => ls.countP (fun l => decide (l.src = t.id)))).sum + (if l.src ∈ ts.map (·.id) then 1 else 0) := by
        intro ts
        induction ts with
        | nil => intro _; exact Nat.le_refl _
        | cons t ts ih =>
          intro hd
          rw [List.map_cons, List.nodup_cons] at hd
          have h2 := ih hd.2
          simp only [List.map_cons, List.sum_cons, List.mem_cons] at h2 ⊢
          rw [List.countP_cons (l := ls)]
          by_cases e : l.src = t.id
          · have h3 : ¬ l.src ∈ ts.map (·.id) := by rw [e]; exact hd.1
            rw [if_neg h3] at h2
            rw [if_pos (decide_eq_true e), if_pos (Or.inl e)]
            omega
          · by_cases h3 : l.src ∈ ts.map (·.id)
            · rw [if_pos h3] at h2
              rw [if_neg (fun h => e (of_decide_eq_true h)), if_pos (Or.inr h3)]
              omega
            · rw [if_neg h3] at h2
              rw [if_neg (fun h => e (of_decide_eq_true h)), if_neg (not_or.2 ⟨e, h3⟩)]
              omega
      have h2 := one d.main.tasks wf.tasks
      rw [List.length_cons]
      split at h2 <;> omega
  have h2 := key d.main.links
  have h3 : (fun t : TaskDef => outs d t.id) = fun t => d.main.links.countP (fun l => l.src = t.id) := funext fun t => h1 t.id
  rw [h3]
  exact h2

theorem funds_le {d : Def} (wf : WellFormed d.main) {tr : List Flow.Ev} (hb : ∀ k, timesBegun tr k ≤ 1) (he : ∀ k, timesEnded tr k ≤ 1) :
    funds d tr ≤ 8 * d.main.tasks.length + 4 * d.main.links.length := by
  have h1 := sum_outs wf
  have h2 : ∀ ts : List TaskDef, (ts.map (fun t => paid d tr t.id)).sum ≤ 8 * ts.length + 4 * (ts.map (fun t => outs d t.id)).sum := by
    intro ts
    induction ts with
    | nil => exact Nat.le_refl _
    | cons t ts ih =>
      have h3 := hb t.id
      have h4 := Nat.mul_le_mul_left (4 * outs d t.id + 5) (he t.id)
      simp only [List.map_cons, List.sum_cons, List.length_cons]
      have h5 : paid d tr t.id = 3 * timesBegun tr t.id + (4 * outs d t.id + 5) * timesEnded tr t.id := rfl
      omega
  have := h2 d.main.tasks
  unfold funds
  omega

theorem runs_bound {prio : Bool} {d : Def} (wf : WellFormed d.main) {uri : String} {ls : List Label} {s : St}
    (h : Conc.runs prio (init d uri) ls = some s) (hr : Reach prio d uri s) (hn : NoHandler d s) :
    ls.length ≤ 10 * d.main.tasks.length + 4 * d.main.links.length + 2 + 2 * agains s.log := by
  have h1 := (Budget.runs wf ls .init (Budget.init d uri) h hn).1 0
  have ok := BeginOK.reach wf hr hn
  have h2 := funds_le wf ok.join.once fun k => Nat.le_trans (ok.act.ended_le k) (ok.join.once k)
  omega

def isAgain : Label → Bool
  | .exec _ .again => true
  | _ => false

theorem step_agains {prio : Bool} {s s' : St} {l : Label} (h : Conc.step prio s l = some s') :
    agains s'.log ≤ agains s.log + (if isAgain l then 1 else 0) := by
  cases l with
  | pop g =>
    unfold Conc.step Conc.pop at h
    dsimp only at h
    split at h
    · cases h
    · split at h
      · cases h; exact Nat.le_add_right ..
      · cases h
  | exec g r =>
    unfold Conc.step Conc.exec at h
    dsimp only at h
    split at h
    · split at h
      · cases h
      · split at h
        · cases h; exact Nat.le_add_right ..
        · cases h
          cases r with
          | again =>
            show agains (.again _ :: s.log) ≤ _
            unfold agains
            rw [List.countP_cons]
            exact Nat.le_refl _
          | _ => exact Nat.le_add_right ..
    · cases h
  | next g =>
    unfold Conc.step Conc.next at h
    dsimp only at h
    split at h
    · cases h
    · cases h
    · cases h; exact Nat.le_add_right ..
    · cases h; exact Nat.le_add_right ..
    · cases h
      unfold finishStep
      split <;> exact Nat.le_add_right ..
    · cases h
      unfold failStep
      split
      · exact Nat.le_add_right ..
      · split <;> exact Nat.le_add_right ..
    · split at h
      · cases h
      · cases h; exact Nat.le_add_right ..
    · cases h; exact Nat.le_add_right ..
    · cases h; exact Nat.le_add_right ..
    · split at h
      · cases h
      · cases h; exact Nat.le_add_right ..
    · cases h
      show agains (.entered _ :: s.log) ≤ _
      unfold agains
      rw [List.countP_cons]
      exact Nat.le_refl _
    · cases h; exact Nat.le_add_right ..

theorem runs_agains {prio : Bool} : ∀ (ls : List Label) {s s' : St}, Conc.runs prio s ls = some s' → agains s'.log ≤ agains s.log + ls.countP isAgain
  | [], s, s', h => by cases h; exact Nat.le_refl _
  | l :: ls, s, s', h => by
    unfold Conc.runs at h
    cases hs : Conc.step prio s l with
    | none => rw [hs] at h; cases h
    | some s1 =>
      rw [hs] at h
      have h1 := runs_agains ls h
      have h2 := step_agains hs
      rw [List.countP_cons]
      omega

end Flow.Conc
