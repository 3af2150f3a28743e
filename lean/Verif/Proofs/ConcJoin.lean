import Verif.Proofs.ConcMove

/-
Concurrent mode, as long as the error handler has not been started: every task begins at most once, in every interleaving.
-/

namespace Flow.Conc

open Flow Spec

/-! ### Creation and removal of task instances -/

theorem create_objs (I : Inst) (t : TaskRef) (p : Nat) (ob' : Obj) (h : (I.findOrCreateTask t).1.objs[p]? = some ob') :
    I.objs[p]? = some ob' ∨ ob'.task = t := by
  unfold Inst.findOrCreateTask at h
  split at h
  · exact .inl h
  · have h : (I.objs ++ [({ task := t } : Obj)])[p]? = some ob' := h
    by_cases hp : p < I.objs.length
    · rw [List.getElem?_append_left hp] at h; exact .inl h
    · rw [List.getElem?_append_right (by omega)] at h
      have : p - I.objs.length = 0 := by
        by_cases h0 : p - I.objs.length = 0
        · exact h0
        · rw [List.getElem?_eq_none (by simp; omega)] at h; cases h
      rw [this] at h
      cases h; exact .inr rfl

theorem create_events (I : Inst) (t : TaskRef) (o : Nat) (u : TaskRef) (st : TaskStatus)
    (h : .taskStatus o u st ∈ (I.findOrCreateTask t).1.trace) : .taskStatus o u st ∈ I.trace := by
  unfold Inst.findOrCreateTask at h
  split at h
  · exact h
  · rcases List.mem_cons.1 h with e | h
    · cases e
    · exact h

theorem create_links (I : Inst) (t : TaskRef) (l : LinkId) : (I.findOrCreateTask t).1.linkSt l = I.linkSt l := by
  unfold Inst.findOrCreateTask
  split <;> rfl

theorem create_get (I : Inst) (t : TaskRef) : (I.findOrCreateTask t).1.tasks.get? t.id = some (I.findOrCreateTask t).2 := by
  unfold Inst.findOrCreateTask
  split
  · rename_i h; exact h
  · exact AMap.get?_set_self ..

theorem create_keeps (I : Inst) (t : TaskRef) {k : TaskId} {o : Nat} (h : I.tasks.get? k = some o) :
    (I.findOrCreateTask t).1.tasks.get? k = some o := by
  unfold Inst.findOrCreateTask
  split
  · exact h
  · rename_i hn
    show (I.tasks.set t.id I.objs.length).get? k = some o
    by_cases e : k = t.id
    · rw [e, hn] at h; cases h
    · rw [AMap.get?_set_ne _ _ (Ne.symm e)]; exact h

theorem release_facts (I : Inst) (t : TaskRef) : (I.release t).objs = I.objs ∧ (I.release t).tasks = I.tasks.del t.id ∧
    (∀ o u st, .taskStatus o u st ∈ (I.release t).trace → .taskStatus o u st ∈ I.trace) ∧
    ∀ l, (I.release t).linkSt l = if l ∈ (I.defn.fromLinks t).map (·.id) then .unset else I.linkSt l := by
  have key : ∀ (ls : List LinkDef) (J : Inst),
      (ls.foldl (fun J l => ({ J with links := J.links.del l.id, trace := .linkRemoved l.id :: J.trace } : Inst)) J).objs = J.objs ∧
      (ls.foldl (fun J l => ({ J with links := J.links.del l.id, trace := .linkRemoved l.id :: J.trace } : Inst)) J).tasks = J.tasks ∧
      (∀ o u st, .taskStatus o u st ∈ (ls.foldl (fun J l => ({ J with links := J.links.del l.id, trace := .linkRemoved l.id :: J.trace } : Inst)) J).trace →
        .taskStatus o u st ∈ J.trace) ∧
      ∀ l, (ls.foldl (fun J l => ({ J with links := J.links.del l.id, trace := .linkRemoved l.id :: J.trace } : Inst)) J).linkSt l =
        if l ∈ ls.map (·.id) then .unset else J.linkSt l := by
    intro ls
    induction ls with
    | nil => intro J; exact ⟨rfl, rfl, fun _ _ _ h => h, fun l => by simp⟩
    | cons x xs ih =>
      intro J
      rw [List.foldl_cons]
      obtain ⟨h1, h2, h3, h4⟩ := ih { J with links := J.links.del x.id, trace := .linkRemoved x.id :: J.trace }
      refine ⟨h1, h2, fun o u st h => ?_, fun l => ?_⟩
      · rcases List.mem_cons.1 (h3 o u st h) with e | h
        · cases e
        · exact h
      · rw [h4 l, List.map_cons]
        have hx : ({ J with links := J.links.del x.id, trace := .linkRemoved x.id :: J.trace } : Inst).linkSt l = if l = x.id then .unset else J.linkSt l := by
          show ((J.links.del x.id).get? l).getD .unset = _
          rw [AMap.get?_del]
          by_cases e : l = x.id
          · rw [if_pos e, if_pos e.symm]; rfl
          · rw [if_neg e, if_neg (Ne.symm e)]; rfl
        rw [hx]
        by_cases e : l = x.id
        · rw [if_pos (c := l ∈ x.id :: _) (by rw [e]; exact List.mem_cons_self ..), if_pos e]
          split <;> rfl
        · rw [if_neg e]
          by_cases hm : l ∈ xs.map (·.id)
          · rw [if_pos hm, if_pos (List.mem_cons_of_mem _ hm)]
          · rw [if_neg hm, if_neg (fun h => (List.mem_cons.1 h).elim e hm)]
  obtain ⟨h1, h2, h3, h4⟩ := key (I.defn.fromLinks t) { I with tasks := I.tasks.del t.id, trace := .taskRemoved t.id :: I.trace }
  refine ⟨h1, h2, fun o u st h => ?_, h4⟩
  rcases List.mem_cons.1 (h3 o u st h) with e | h
  · cases e
  · exact h

theorem Move.ext {d : Def} {s s' : St} {g : Nat} (m : Move d s g s') : Ext s.inst s'.inst := by
  cases m with
  | pop | over | again | rowsEnd | proceed | lock | unlock | push => exact .refl _
  | wait _ _ _ _ h => exact h.ext
  | ended _ _ _ _ _ _ _ h => exact h.ext
  | row _ _ _ _ _ h => exact h.ext
  | complete _ _ _ _ _ _ h => exact h.ext
  | fail _ _ _ h => exact h.ext
  | known x => exact Ext.findOrCreateTask ..
  | create x => exact Ext.findOrCreateTask ..
  | notReady _ _ _ _ _ _ _ h => exact h.ext
  | ready _ _ _ _ _ _ _ h => exact h.ext
  | skip _ _ _ _ _ _ _ _ _ _ h => exact h.ext
  | release t => exact Ext.release t

/-! ### Which tasks there are -/

def Main (P : TaskRef → Prop) (es : List TaskEntry) : Prop := ∀ x ∈ es, P x.task

def FrMain (P : TaskRef → Prop) : Fr → Prop
  | .finish t _ es => P t ∧ Main P es
  | .lock es => Main P es
  | .enter es => Main P es
  | .test _ es => Main P es
  | .push _ es => Main P es
  | .release t => P t
  | _ => True

/-- All tasks are of a kind. -/
structure RefsOK (P : TaskRef → Prop) (s : St) : Prop where
  objs : ∀ (o : Nat) ob, s.inst.objs[o]? = some ob → P ob.task
  frames : ∀ g f, f ∈ s.gs g → FrMain P f
  events : ∀ o t st, .taskStatus o t st ∈ s.inst.trace → P t

/-- Everything belongs to the main flow. -/
abbrev EhOK (s : St) : Prop := RefsOK (fun t => t.eh = false) s

theorem main_start (d : Def) : Main (fun t => t.eh = false) (Inst.startEntries d false) := by
  intro x hx
  obtain ⟨t, _, e⟩ := List.mem_map.1 hx
  rw [← e]

theorem RefsOK.init {P : TaskRef → Prop} (d : Def) (uri : String) (hP : Main P (Inst.startEntries d false)) : RefsOK P (init d uri) := by
  refine ⟨fun o ob h => ?_, fun g f hf => ?_, fun o t st h => ?_⟩
  · have h : ([] : List Obj)[o]? = some ob := h
    simp at h
  · have hf : f ∈ (if g = 0 then [Fr.lock (Inst.startEntries d false)] else []) := hf
    split at hf
    · rw [List.mem_singleton.1 hf]; exact hP
    · cases hf
  · have h : .taskStatus o t st ∈ [Flow.Ev.flowStatus .active] := h
    rcases List.mem_cons.1 h with e | h
    · cases e
    · cases h

/-- Links lead to tasks of the same kind. -/
def Along (d : Def) (P : TaskRef → Prop) : Prop := ∀ t l, P t → l ∈ d.toLinks t → P ⟨t.eh, l.dst⟩

theorem main_toward {d : Def} {P : TaskRef → Prop} (hP : Along d P) {t : TaskRef} {es : List TaskEntry} (h : Toward d t es) (ht : P t) : Main P es := by
  intro x hx
  obtain ⟨l, hl, e⟩ := h x hx
  rw [e]; exact hP t l ht hl

theorem mem_goto {s : St} {g h : Nat} {fs : List Fr} {f : Fr} (hf : f ∈ (s.goto g fs).gs h) : (h = g ∧ f ∈ fs) ∨ (h ≠ g ∧ f ∈ s.gs h) := by
  have hf : f ∈ (if h = g then fs else s.gs h) := hf
  split at hf
  · rename_i e; exact .inl ⟨e, hf⟩
  · rename_i e; exact .inr ⟨e, hf⟩

theorem RefsOK.step {d : Def} {P : TaskRef → Prop} (hP : Along d P) {s s' : St} {g : Nat} (ok : RefsOK P s) (m : Move d s g s') : RefsOK P s' := by
  have frames : ∀ {g : Nat} {fs : List Fr}, (∀ f ∈ fs, f ∈ s.gs g ∨ FrMain P f) → ∀ h f, f ∈ (s.goto g fs).gs h → FrMain P f := by
    intro g fs hfs h f hf
    rcases mem_goto hf with ⟨_, hf⟩ | ⟨_, hf⟩
    · rcases hfs f hf with h1 | h1
      · exact ok.frames g f h1
      · exact h1
    · exact ok.frames h f hf
  have eff : ∀ {J : Inst} {a b : TaskId → Nat}, Eff s.inst J a b → (∀ (o : Nat) ob, J.objs[o]? = some ob → P ob.task) ∧
      ∀ o t st, .taskStatus o t st ∈ J.trace → P t := by
    intro J a b h
    refine ⟨fun o ob ho => ?_, fun o t st hm => ?_⟩
    · obtain ⟨ob0, h1, h2⟩ := h.objs o ob ho
      rw [← h2]; exact ok.objs o ob0 h1
    · rcases h.events o t st hm with h1 | ⟨ob, h1, h2⟩
      · exact ok.events o t st h1
      · rw [← h2]; exact ok.objs o ob h1
  have top : ∀ {g : Nat} {f : Fr} {rest : List Fr}, s.gs g = f :: rest → FrMain P f ∧ ∀ x ∈ rest, x ∈ s.gs g := by
    intro g f rest hg
    exact ⟨ok.frames g f (by rw [hg]; exact List.mem_cons_self ..), fun x hx => by rw [hg]; exact List.mem_cons_of_mem _ hx⟩
  cases m with
  | pop o q hq hg =>
    exact ⟨ok.objs, frames (fun f hf => by rw [List.mem_singleton.1 hf]; exact .inr trivial), ok.events⟩
  | over o rest hg => exact ⟨ok.objs, frames (fun f hf => .inl ((top hg).2 f hf)), ok.events⟩
  | wait o rest J hg h => exact ⟨(eff h.toEff).1, frames (fun f hf => .inl ((top hg).2 f hf)), (eff h.toEff).2⟩
  | again o rest lg hg => exact ⟨ok.objs, frames (fun f hf => .inl ((top hg).2 f hf)), ok.events⟩
  | ended o ob rest fs J hg ho h hf =>
    refine ⟨(eff h.toEff).1, frames (fun f hf' => ?_), (eff h.toEff).2⟩
    have hb := ok.objs o ob ho
    cases hf with
    | fails h1 =>
      simp only [List.mem_cons] at hf'
      rcases hf' with e | e | e
      · subst e; exact .inr trivial
      · subst e; exact .inr trivial
      · exact .inl ((top hg).2 f e)
    | done h1 h2 =>
      simp only [List.mem_cons] at hf'
      rcases hf' with e | e | e
      · subst e; exact .inr trivial
      · subst e; exact .inr ⟨hb, main_toward hP h2 hb⟩
      · exact .inl ((top hg).2 f e)
    | unhandled =>
      simp only [List.mem_cons] at hf'
      rcases hf' with e | e
      · subst e; exact .inr trivial
      · exact .inl ((top hg).2 f e)
    | handled h1 h2 =>
      simp only [List.mem_cons] at hf'
      rcases hf' with e | e | e | e
      · subst e; exact .inr trivial
      · subst e; exact .inr (main_toward hP h2 hb)
      · subst e; exact .inr hb
      · exact .inl ((top hg).2 f e)
  | rowsEnd gen rest hg => exact ⟨ok.objs, frames (fun f hf => .inl ((top hg).2 f hf)), ok.events⟩
  | row gen r rs rest hg h htk =>
    refine ⟨(eff h).1, frames (fun f hf => ?_), (eff h).2⟩
    rcases List.mem_cons.1 hf with e | hf
    · subst e; exact .inr trivial
    · exact .inl ((top hg).2 f hf)
  | complete t n es rest J hg h =>
    refine ⟨(eff h.toEff).1, frames (fun f hf => ?_), (eff h.toEff).2⟩
    rcases List.mem_cons.1 hf with e | hf
    · subst e; exact .inr (top hg).1.1
    · exact .inl ((top hg).2 f hf)
  | proceed t n es rest hg =>
    refine ⟨ok.objs, frames (fun f hf => ?_), ok.events⟩
    simp only [List.mem_cons] at hf
    rcases hf with e | e | hf
    · subst e; exact .inr (top hg).1.2
    · subst e; exact .inr (top hg).1.1
    · exact .inl ((top hg).2 f hf)
  | fail rest J hg h => exact ⟨(eff h.toEff).1, frames (fun f hf => .inl ((top hg).2 f hf)), (eff h.toEff).2⟩
  | lock es rest hg hl =>
    refine ⟨ok.objs, frames (fun f hf => ?_), ok.events⟩
    rcases List.mem_cons.1 hf with e | hf
    · subst e; exact .inr (top hg).1
    · exact .inl ((top hg).2 f hf)
  | unlock rest hg => exact ⟨ok.objs, frames (fun f hf => .inl ((top hg).2 f hf)), ok.events⟩
  | known x xs rest hg hs =>
    have hm : Main P (x :: xs) := (top hg).1
    refine ⟨fun o ob h => ?_, frames (fun f hf => ?_), fun o t st h => ok.events o t st (create_events _ _ _ _ _ h)⟩
    · rcases create_objs _ _ _ _ h with h1 | h1
      · exact ok.objs o ob h1
      · rw [h1]; exact hm x (List.mem_cons_self ..)
    · rcases List.mem_cons.1 hf with e | hf
      · subst e; exact .inr (fun y hy => hm y (List.mem_cons_of_mem _ hy))
      · exact .inl ((top hg).2 f hf)
  | create x xs rest hg hs =>
    have hm : Main P (x :: xs) := (top hg).1
    refine ⟨fun o ob h => ?_, frames (fun f hf => ?_), fun o t st h => ok.events o t st (create_events _ _ _ _ _ h)⟩
    · rcases create_objs _ _ _ _ h with h1 | h1
      · exact ok.objs o ob h1
      · rw [h1]; exact hm x (List.mem_cons_self ..)
    · rcases List.mem_cons.1 hf with e | hf
      · subst e; exact .inr (fun y hy => hm y (List.mem_cons_of_mem _ hy))
      · exact .inl ((top hg).2 f hf)
  | notReady o ob es rest J hg ho h =>
    refine ⟨(eff h.toEff).1, frames (fun f hf => ?_), (eff h.toEff).2⟩
    rcases List.mem_cons.1 hf with e | hf
    · subst e; exact .inr (top hg).1
    · exact .inl ((top hg).2 f hf)
  | ready o ob es rest J hg ho h hd =>
    refine ⟨(eff h.toEff).1, frames (fun f hf => ?_), (eff h.toEff).2⟩
    rcases List.mem_cons.1 hf with e | hf
    · subst e; exact .inr (top hg).1
    · exact .inl ((top hg).2 f hf)
  | skip o ob es es' n rs rest J hg ho h hr he hd =>
    refine ⟨(eff h.toEff).1, frames (fun f hf => ?_), (eff h.toEff).2⟩
    simp only [List.mem_cons] at hf
    have hb := ok.objs o ob ho
    rcases hf with e | e | e | hf
    · subst e; exact .inr trivial
    · subst e; exact .inr ⟨hb, main_toward hP he hb⟩
    · subst e; exact .inr (top hg).1
    · exact .inl ((top hg).2 f hf)
  | push o es rest hg =>
    refine ⟨ok.objs, frames (fun f hf => ?_), ok.events⟩
    rcases List.mem_cons.1 hf with e | hf
    · subst e; exact .inr (top hg).1
    · exact .inl ((top hg).2 f hf)
  | release t rest hg =>
    obtain ⟨h1, _, h3, _⟩ := release_facts s.inst t
    refine ⟨fun o ob h => ok.objs o ob (by rw [← h1]; exact h), frames (fun f hf => .inl ((top hg).2 f hf)), fun o u st h => ok.events o u st (h3 o u st h)⟩

theorem EhOK.init (d : Def) (uri : String) : EhOK (init d uri) := RefsOK.init d uri (main_start d)

theorem EhOK.step {d : Def} {s s' : St} {g : Nat} (ok : EhOK s) (m : Move d s g s') : EhOK s' := RefsOK.step (fun _ _ h _ => h) ok m

/-! ### Sums over goroutines -/

def wSum (w : Fr → Nat) (fs : List Fr) : Nat := (fs.map w).sum

theorem wSum_cons (w : Fr → Nat) (f : Fr) (fs : List Fr) : wSum w (f :: fs) = w f + wSum w fs := by simp [wSum]

theorem wSum_congr {w w' : Fr → Nat} {fs : List Fr} (h : ∀ f ∈ fs, w' f = w f) : wSum w' fs = wSum w fs := by
  unfold wSum; rw [List.map_congr_left h]

theorem tally {s : St} {gs' : Nat → List Fr} {g : Nat} {fs : List Fr} {w w' : Fr → Nat} {A A' B B' : Nat} (hg : gs' = (s.goto g fs).gs)
    (hw : ∀ h f, f ∈ s.gs h → w' f = w f) (ok : ∀ n, sumTo (fun h => wSum w (s.gs h)) n + A ≤ B)
    (hl : wSum w' fs + A' + B ≤ wSum w (s.gs g) + A + B') (n : Nat) : sumTo (fun h => wSum w' (gs' h)) n + A' ≤ B' := by
  have h1 := sumTo_mono (fun h => wSum w' (gs' h)) (Nat.le_max_left n (g + 1))
  have h2 := sumTo_update (f := fun h => wSum w (s.gs h)) (h := fun h => wSum w' (gs' h)) (g := g) (fun i hi => by
    subst hg
    show wSum w' (if i = g then fs else s.gs i) = _
    rw [if_neg hi]; exact wSum_congr (hw i)) (max n (g + 1)) (by omega)
  have h3 : wSum w' (gs' g) = wSum w' fs := by
    subst hg
    show wSum w' (if g = g then fs else s.gs g) = _
    rw [if_pos rfl]
  have h4 := ok (max n (g + 1))
  rw [h3] at h2
  omega

/-! ### Executions after begins -/

def frAct (I : Inst) (k : TaskId) : Fr → Nat
  | .run o => objTok I k o
  | .push o _ => objTok I k o
  | _ => 0

def ActOK (s : St) : Prop :=
  ∀ k n, sumTo (fun h => wSum (frAct s.inst k) (s.gs h)) n + (queueTok s.inst k s.queue + timesEnded s.inst.trace k) ≤ timesBegun s.inst.trace k

theorem ActOK.init (d : Def) (uri : String) : ActOK (init d uri) := by
  intro k n
  have h1 : ∀ h, wSum (frAct (Conc.init d uri).inst k) ((Conc.init d uri).gs h) = 0 := by
    intro h
    show wSum _ (if h = 0 then [Fr.lock (Inst.startEntries d false)] else []) = 0
    split <;> rfl
  have h2 : sumTo (fun h => wSum (frAct (Conc.init d uri).inst k) ((Conc.init d uri).gs h)) n = 0 := by
    induction n with
    | zero => rfl
    | succ n ih => unfold sumTo; rw [ih, h1]
  rw [h2]
  exact Nat.le_refl _

theorem frAct_ext {I J : Inst} (x : Ext I J) {f : Fr} (h : ∀ o, objOf f = some o → o < I.objs.length) (k : TaskId) : frAct J k f = frAct I k f := by
  cases f with
  | run o => exact objTok_ext x (h o rfl) k
  | push o es => exact objTok_ext x (h o rfl) k
  | _ => rfl

theorem queueTok_append (I : Inst) (k : TaskId) (q : List Nat) (o : Nat) : queueTok I k (q ++ [o]) = queueTok I k q + objTok I k o := by
  simp [queueTok]

theorem ActOK.step {d : Def} {s s' : St} {g : Nat} (ok : ActOK s) (ho : ObjsOK s) (m : Move d s g s') : ActOK s' := by
  have x := m.ext
  intro k
  have hw : ∀ h f, f ∈ s.gs h → frAct s'.inst k f = frAct s.inst k f := fun h f hf => frAct_ext x (fun o e => ho.frames h f o hf e) k
  have hq := queueTok_ext x ho.queue k
  have hrest : ∀ {g : Nat} {f : Fr} {rest : List Fr}, s.gs g = f :: rest → wSum (frAct s'.inst k) rest = wSum (frAct s.inst k) rest := by
    intro g f rest hg
    exact wSum_congr fun f hf => hw g f (by rw [hg]; exact List.mem_cons_of_mem _ hf)
  have hobj : ∀ {g : Nat} {f : Fr} {rest : List Fr} {o : Nat}, s.gs g = f :: rest → objOf f = some o → objTok s'.inst k o = objTok s.inst k o := by
    intro g f rest o hg hf
    exact objTok_ext x (ho.frames g f o (by rw [hg]; exact List.mem_cons_self ..) hf) k
  cases m with
  | pop o q hq' hg =>
    refine tally rfl hw (ok k) ?_
    rw [hg]
    have : queueTok s.inst k s.queue = objTok s.inst k o + queueTok s.inst k q := by rw [hq']; simp [queueTok]
    show wSum (frAct s.inst k) [.run o] + (queueTok s.inst k q + timesEnded s.inst.trace k) + timesBegun s.inst.trace k ≤ _ + timesBegun s.inst.trace k
    have h1 : wSum (frAct s.inst k) [.run o] = objTok s.inst k o := rfl
    have h2 : wSum (frAct s.inst k) [] = 0 := rfl
    omega
  | over o rest hg =>
    refine tally rfl hw (ok k) ?_
    rw [hg]
    show wSum (frAct s.inst k) rest + (queueTok s.inst k s.queue + timesEnded s.inst.trace k) + timesBegun s.inst.trace k ≤ _ + timesBegun s.inst.trace k
    simp only [wSum_cons, frAct]; omega
  | wait o rest J hg h =>
    refine tally rfl hw (ok k) ?_
    have h1 := h.begun k; have h2 := h.ended k; have h3 := hrest hg
    rw [hg]
    show wSum (frAct J k) rest + (queueTok J k s.queue + timesEnded J.trace k) + timesBegun s.inst.trace k ≤ _ + timesBegun J.trace k
    have h3 : wSum (frAct J k) rest = wSum (frAct s.inst k) rest := h3
    have hq : queueTok J k s.queue = queueTok s.inst k s.queue := hq
    simp only [wSum_cons, frAct]; omega
  | again o rest lg hg =>
    refine tally rfl hw (ok k) ?_
    rw [hg]
    show wSum (frAct s.inst k) rest + (queueTok s.inst k (s.queue ++ [o]) + timesEnded s.inst.trace k) + timesBegun s.inst.trace k ≤ _ + timesBegun s.inst.trace k
    rw [queueTok_append]
    simp only [wSum_cons, frAct]; omega
  | ended o ob rest fs J hg hob h hf =>
    refine tally rfl hw (ok k) ?_
    have h1 := h.begun k; have h2 := h.ended k
    have h3 : wSum (frAct J k) rest = wSum (frAct s.inst k) rest := hrest hg
    have hq : queueTok J k s.queue = queueTok s.inst k s.queue := hq
    have hfs : wSum (frAct J k) fs = wSum (frAct J k) rest := by cases hf <;> simp [wSum_cons, frAct]
    rw [hg]
    show wSum (frAct J k) fs + (queueTok J k s.queue + timesEnded J.trace k) + timesBegun s.inst.trace k ≤ _ + timesBegun J.trace k
    simp only [wSum_cons, frAct]; omega
  | rowsEnd gen rest hg =>
    refine tally rfl hw (ok k) ?_
    rw [hg]
    show wSum (frAct s.inst k) rest + (queueTok s.inst k s.queue + timesEnded s.inst.trace k) + timesBegun s.inst.trace k ≤ _ + timesBegun s.inst.trace k
    simp only [wSum_cons, frAct]; omega
  | row gen r rs rest hg h htk =>
    refine tally rfl hw (ok k) ?_
    have h1 := h.begun k; have h2 := h.ended k
    have h3 : wSum (frAct (setPtr s gen r) k) rest = wSum (frAct s.inst k) rest := hrest hg
    have hq : queueTok (setPtr s gen r) k s.queue = queueTok s.inst k s.queue := hq
    rw [hg]
    show wSum (frAct (setPtr s gen r) k) (.rows gen rs :: rest) + (queueTok (setPtr s gen r) k s.queue + timesEnded (setPtr s gen r).trace k) +
      timesBegun s.inst.trace k ≤ _ + timesBegun (setPtr s gen r).trace k
    simp only [wSum_cons, frAct]; omega
  | complete t n es rest J hg h =>
    refine tally rfl hw (ok k) ?_
    have h1 := h.begun k; have h2 := h.ended k
    have h3 : wSum (frAct J k) rest = wSum (frAct s.inst k) rest := hrest hg
    have hq : queueTok J k s.queue = queueTok s.inst k s.queue := hq
    rw [hg]
    show wSum (frAct J k) (.release t :: rest) + (queueTok J k s.queue + timesEnded J.trace k) + timesBegun s.inst.trace k ≤ _ + timesBegun J.trace k
    simp only [wSum_cons, frAct]; omega
  | proceed t n es rest hg =>
    refine tally rfl hw (ok k) ?_
    rw [hg]
    show wSum (frAct s.inst k) (.lock es :: .release t :: rest) + (queueTok s.inst k s.queue + timesEnded s.inst.trace k) + timesBegun s.inst.trace k ≤ _ + timesBegun s.inst.trace k
    simp only [wSum_cons, frAct]; omega
  | fail rest J hg h =>
    refine tally rfl hw (ok k) ?_
    have h1 := h.begun k; have h2 := h.ended k
    have h3 : wSum (frAct J k) rest = wSum (frAct s.inst k) rest := hrest hg
    have hq : queueTok J k s.queue = queueTok s.inst k s.queue := hq
    rw [hg]
    show wSum (frAct J k) rest + (queueTok J k s.queue + timesEnded J.trace k) + timesBegun s.inst.trace k ≤ _ + timesBegun J.trace k
    simp only [wSum_cons, frAct]; omega
  | lock es rest hg hl =>
    refine tally rfl hw (ok k) ?_
    rw [hg]
    show wSum (frAct s.inst k) (.enter es :: rest) + (queueTok s.inst k s.queue + timesEnded s.inst.trace k) + timesBegun s.inst.trace k ≤ _ + timesBegun s.inst.trace k
    simp only [wSum_cons, frAct]; omega
  | unlock rest hg =>
    refine tally rfl hw (ok k) ?_
    rw [hg]
    show wSum (frAct s.inst k) rest + (queueTok s.inst k s.queue + timesEnded s.inst.trace k) + timesBegun s.inst.trace k ≤ _ + timesBegun s.inst.trace k
    simp only [wSum_cons, frAct]; omega
  | known y ys rest hg hs =>
    refine tally rfl hw (ok k) ?_
    have h1 := begun_create s.inst k y.task; have h2 := ends_create s.inst k y.task
    have h3 : wSum (frAct (s.inst.findOrCreateTask y.task).1 k) rest = wSum (frAct s.inst k) rest := hrest hg
    have hq : queueTok (s.inst.findOrCreateTask y.task).1 k s.queue = queueTok s.inst k s.queue := hq
    rw [hg]
    show wSum (frAct (s.inst.findOrCreateTask y.task).1 k) (.enter ys :: rest) + (queueTok (s.inst.findOrCreateTask y.task).1 k s.queue +
      timesEnded (s.inst.findOrCreateTask y.task).1.trace k) + timesBegun s.inst.trace k ≤ _ + timesBegun (s.inst.findOrCreateTask y.task).1.trace k
    simp only [wSum_cons, frAct]; omega
  | create y ys rest hg hs =>
    refine tally rfl hw (ok k) ?_
    have h1 := begun_create s.inst k y.task; have h2 := ends_create s.inst k y.task
    have h3 : wSum (frAct (s.inst.findOrCreateTask y.task).1 k) rest = wSum (frAct s.inst k) rest := hrest hg
    have hq : queueTok (s.inst.findOrCreateTask y.task).1 k s.queue = queueTok s.inst k s.queue := hq
    rw [hg]
    show wSum (frAct (s.inst.findOrCreateTask y.task).1 k) (.test (s.inst.findOrCreateTask y.task).2 ys :: rest) +
      (queueTok (s.inst.findOrCreateTask y.task).1 k s.queue +
      timesEnded (s.inst.findOrCreateTask y.task).1.trace k) + timesBegun s.inst.trace k ≤ _ + timesBegun (s.inst.findOrCreateTask y.task).1.trace k
    simp only [wSum_cons, frAct]; omega
  | notReady o ob es rest J hg hob h =>
    refine tally rfl hw (ok k) ?_
    have h1 := h.begun k; have h2 := h.ended k
    have h3 : wSum (frAct J k) rest = wSum (frAct s.inst k) rest := hrest hg
    have hq : queueTok J k s.queue = queueTok s.inst k s.queue := hq
    rw [hg]
    show wSum (frAct J k) (.enter es :: rest) + (queueTok J k s.queue + timesEnded J.trace k) + timesBegun s.inst.trace k ≤ _ + timesBegun J.trace k
    simp only [wSum_cons, frAct]; omega
  | ready o ob es rest J hg hob h hd =>
    refine tally rfl hw (ok k) ?_
    have h1 := h.begun k
    have h2 : timesEnded J.trace k = timesEnded s.inst.trace k := h.ended k
    have h3 : wSum (frAct J k) rest = wSum (frAct s.inst k) rest := hrest hg
    have hq : queueTok J k s.queue = queueTok s.inst k s.queue := hq
    have h4 : objTok J k o = objTok s.inst k o := hobj hg rfl
    rw [hg]
    show wSum (frAct J k) (.push o es :: rest) + (queueTok J k s.queue + timesEnded J.trace k) + timesBegun s.inst.trace k ≤ _ + timesBegun J.trace k
    simp only [wSum_cons, frAct]; omega
  | skip o ob es es' n rs rest J hg hob h hr he hd =>
    refine tally rfl hw (ok k) ?_
    have h1 := h.begun k; have h2 := h.ended k
    have h3 : wSum (frAct J k) rest = wSum (frAct s.inst k) rest := hrest hg
    have hq : queueTok J k s.queue = queueTok s.inst k s.queue := hq
    rw [hg]
    show wSum (frAct J k) (.rows s.gen rs :: .finish ob.task n es' :: .enter es :: rest) + (queueTok J k s.queue + timesEnded J.trace k) +
      timesBegun s.inst.trace k ≤ _ + timesBegun J.trace k
    simp only [wSum_cons, frAct]; omega
  | push o es rest hg =>
    refine tally rfl hw (ok k) ?_
    rw [hg]
    show wSum (frAct s.inst k) (.enter es :: rest) + (queueTok s.inst k (s.queue ++ [o]) + timesEnded s.inst.trace k) + timesBegun s.inst.trace k ≤ _ + timesBegun s.inst.trace k
    rw [queueTok_append]
    simp only [wSum_cons, frAct]; omega
  | release t rest hg =>
    refine tally (s := s) (g := g) rfl hw (ok k) ?_
    have h1 := begun_release s.inst k t; have h2 := ends_release s.inst k t
    have h3 : wSum (frAct (s.inst.release t) k) rest = wSum (frAct s.inst k) rest := hrest hg
    have hq : queueTok (s.inst.release t) k s.queue = queueTok s.inst k s.queue := hq
    rw [hg]
    show wSum (frAct (s.inst.release t) k) rest + (queueTok (s.inst.release t) k s.queue + timesEnded (s.inst.release t).trace k) +
      timesBegun s.inst.trace k ≤ _ + timesBegun (s.inst.release t).trace k
    simp only [wSum_cons, frAct]; omega

/-! ### Tasks without incoming links -/

def frEnt (I : Inst) (k : TaskId) : Fr → Nat
  | .finish _ _ es => entTok k es
  | .lock es => entTok k es
  | .enter es => entTok k es
  | .test o es => objTok I k o + entTok k es
  | .push _ es => entTok k es
  | _ => 0

def EntOK (d : Def) (s : St) : Prop :=
  ∀ k, d.fromLinks ⟨false, k⟩ = [] → ∀ n, sumTo (fun h => wSum (frEnt s.inst k) (s.gs h)) n + timesBegun s.inst.trace k ≤ startTok d false k

theorem EntOK.init (d : Def) (uri : String) : EntOK d (init d uri) := by
  intro k _ n
  have h0 : timesBegun (Conc.init d uri).inst.trace k = 0 := rfl
  have h1 := sumTo_mono (fun h => wSum (frEnt (Conc.init d uri).inst k) ((Conc.init d uri).gs h)) (Nat.le_max_left n 1)
  have h2 := sumTo_update (f := fun _ => 0) (h := fun h => wSum (frEnt (Conc.init d uri).inst k) ((Conc.init d uri).gs h)) (g := 0) (fun i hi => by
    show wSum _ (if i = 0 then [Fr.lock (Inst.startEntries d false)] else []) = 0
    rw [if_neg hi]; rfl) (max n 1) (by omega)
  have h3 : ∀ m, sumTo (fun _ => 0) m = 0 := by
    intro m
    induction m with
    | zero => rfl
    | succ m ih => unfold sumTo; rw [ih]
  have h4 : wSum (frEnt (Conc.init d uri).inst k) ((Conc.init d uri).gs 0) = startTok d false k := by
    show wSum _ [Fr.lock (Inst.startEntries d false)] = _
    simp [wSum, frEnt, startTok]
  rw [h3] at h2
  simp only [h4] at h2
  omega

theorem frEnt_ext {I J : Inst} (x : Ext I J) {f : Fr} (h : ∀ o, objOf f = some o → o < I.objs.length) (k : TaskId) : frEnt J k f = frEnt I k f := by
  cases f with
  | test o es => exact congrArg (· + entTok k es) (objTok_ext x (h o rfl) k)
  | _ => rfl

theorem mem_toLinks {d : Def} {t : TaskRef} {l : LinkDef} (h : l ∈ d.toLinks t) : l ∈ (d.graph t.eh).links ∧ l.src = t.id := by
  have h : l ∈ (d.graph t.eh).links.filter (fun l => l.src = t.id) := h
  simpa using h

theorem mem_fromLinks {d : Def} {t : TaskRef} {l : LinkDef} : l ∈ d.fromLinks t ↔ l ∈ (d.graph t.eh).links ∧ l.dst = t.id := by
  show l ∈ (d.graph t.eh).links.filter (fun l => l.dst = t.id) ↔ _
  simp

theorem toward_none {d : Def} {t : TaskRef} {es : List TaskEntry} (h : Toward d t es) (ht : t.eh = false) {k : TaskId}
    (hk : d.fromLinks ⟨false, k⟩ = []) : entTok k es = 0 := by
  unfold entTok
  rw [List.countP_eq_zero]
  intro x hx hc
  obtain ⟨l, hl, e⟩ := h x hx
  have h1 := mem_toLinks hl
  have : l ∈ d.fromLinks ⟨false, k⟩ := mem_fromLinks.2 ⟨by rw [ht] at h1; exact h1.1, by
    have hc : x.task.id = k := by simpa using hc
    rw [e] at hc; exact hc⟩
  rw [hk] at this; cases this

theorem EntOK.step {d : Def} {s s' : St} {g : Nat} (ok : EntOK d s) (ho : ObjsOK s) (ht : TrOK d s) (he : EhOK s) (m : Move d s g s') : EntOK d s' := by
  have x := m.ext
  intro k hk
  have hw : ∀ h f, f ∈ s.gs h → frEnt s'.inst k f = frEnt s.inst k f := fun h f hf => frEnt_ext x (fun o e => ho.frames h f o hf e) k
  have hrest : ∀ {g : Nat} {f : Fr} {rest : List Fr}, s.gs g = f :: rest → wSum (frEnt s'.inst k) rest = wSum (frEnt s.inst k) rest := by
    intro g f rest hg
    exact wSum_congr fun f hf => hw g f (by rw [hg]; exact List.mem_cons_of_mem _ hf)
  cases m with
  | pop o q hq' hg =>
    refine tally (s := s) (g := g) rfl hw (ok k hk) ?_
    rw [hg]; exact Nat.le_refl _
  | over o rest hg =>
    refine tally (s := s) (g := g) rfl hw (ok k hk) ?_
    rw [hg]
    show wSum (frEnt s.inst k) rest + timesBegun s.inst.trace k + startTok d false k ≤ _
    simp only [wSum_cons, frEnt]; omega
  | wait o rest J hg h =>
    refine tally (s := s) (g := g) rfl hw (ok k hk) ?_
    have h1 : timesBegun J.trace k = timesBegun s.inst.trace k := h.begun k
    have h3 : wSum (frEnt J k) rest = wSum (frEnt s.inst k) rest := hrest hg
    rw [hg]
    show wSum (frEnt J k) rest + timesBegun J.trace k + startTok d false k ≤ _
    simp only [wSum_cons, frEnt]; omega
  | again o rest lg hg =>
    refine tally (s := s) (g := g) rfl hw (ok k hk) ?_
    rw [hg]
    show wSum (frEnt s.inst k) rest + timesBegun s.inst.trace k + startTok d false k ≤ _
    simp only [wSum_cons, frEnt]; omega
  | ended o ob rest fs J hg hob h hf =>
    refine tally (s := s) (g := g) rfl hw (ok k hk) ?_
    have h1 : timesBegun J.trace k = timesBegun s.inst.trace k := h.begun k
    have h3 : wSum (frEnt J k) rest = wSum (frEnt s.inst k) rest := hrest hg
    have hb := he.objs o ob hob
    have hfs : wSum (frEnt J k) fs = wSum (frEnt J k) rest := by
      cases hf with
      | fails _ => simp [wSum_cons, frEnt]
      | done _ h2 => simp [wSum_cons, frEnt, toward_none h2 hb hk]
      | unhandled => simp [wSum_cons, frEnt]
      | handled _ h2 => simp [wSum_cons, frEnt, toward_none h2 hb hk]
    rw [hg]
    show wSum (frEnt J k) fs + timesBegun J.trace k + startTok d false k ≤ _
    simp only [wSum_cons, frEnt]; omega
  | rowsEnd gen rest hg =>
    refine tally (s := s) (g := g) rfl hw (ok k hk) ?_
    rw [hg]
    show wSum (frEnt s.inst k) rest + timesBegun s.inst.trace k + startTok d false k ≤ _
    simp only [wSum_cons, frEnt]; omega
  | row gen r rs rest hg h htk =>
    refine tally (s := s) (g := g) rfl hw (ok k hk) ?_
    have h1 : timesBegun (setPtr s gen r).trace k = timesBegun s.inst.trace k := h.begun k
    have h3 : wSum (frEnt (setPtr s gen r) k) rest = wSum (frEnt s.inst k) rest := hrest hg
    rw [hg]
    show wSum (frEnt (setPtr s gen r) k) (.rows gen rs :: rest) + timesBegun (setPtr s gen r).trace k + startTok d false k ≤ _
    simp only [wSum_cons, frEnt]; omega
  | complete t n es rest J hg h =>
    refine tally (s := s) (g := g) rfl hw (ok k hk) ?_
    have h1 : timesBegun J.trace k = timesBegun s.inst.trace k := h.begun k
    have h3 : wSum (frEnt J k) rest = wSum (frEnt s.inst k) rest := hrest hg
    rw [hg]
    show wSum (frEnt J k) (.release t :: rest) + timesBegun J.trace k + startTok d false k ≤ _
    simp only [wSum_cons, frEnt]; omega
  | proceed t n es rest hg =>
    refine tally (s := s) (g := g) rfl hw (ok k hk) ?_
    rw [hg]
    show wSum (frEnt s.inst k) (.lock es :: .release t :: rest) + timesBegun s.inst.trace k + startTok d false k ≤ _
    simp only [wSum_cons, frEnt]; omega
  | fail rest J hg h =>
    refine tally (s := s) (g := g) rfl hw (ok k hk) ?_
    have h1 : timesBegun J.trace k = timesBegun s.inst.trace k := h.begun k
    have h3 : wSum (frEnt J k) rest = wSum (frEnt s.inst k) rest := hrest hg
    rw [hg]
    show wSum (frEnt J k) rest + timesBegun J.trace k + startTok d false k ≤ _
    simp only [wSum_cons, frEnt]; omega
  | lock es rest hg hl =>
    refine tally (s := s) (g := g) rfl hw (ok k hk) ?_
    rw [hg]
    show wSum (frEnt s.inst k) (.enter es :: rest) + timesBegun s.inst.trace k + startTok d false k ≤ _
    simp only [wSum_cons, frEnt]; omega
  | unlock rest hg =>
    refine tally (s := s) (g := g) rfl hw (ok k hk) ?_
    rw [hg]
    show wSum (frEnt s.inst k) rest + timesBegun s.inst.trace k + startTok d false k ≤ _
    simp only [wSum_cons, frEnt]; omega
  | known y ys rest hg hs =>
    refine tally (s := s) (g := g) rfl hw (ok k hk) ?_
    have h1 := begun_create s.inst k y.task
    have h3 : wSum (frEnt (s.inst.findOrCreateTask y.task).1 k) rest = wSum (frEnt s.inst k) rest := hrest hg
    have h4 := entTok_cons k y ys
    rw [hg]
    show wSum (frEnt (s.inst.findOrCreateTask y.task).1 k) (.enter ys :: rest) + timesBegun (s.inst.findOrCreateTask y.task).1.trace k + startTok d false k ≤ _
    simp only [wSum_cons, frEnt]; omega
  | create y ys rest hg hs =>
    refine tally (s := s) (g := g) rfl hw (ok k hk) ?_
    have h1 := begun_create s.inst k y.task
    have h3 : wSum (frEnt (s.inst.findOrCreateTask y.task).1 k) rest = wSum (frEnt s.inst k) rest := hrest hg
    have h4 := entTok_cons k y ys
    have h5 := objTok_create ht.ok y.task k
    rw [hg]
    show wSum (frEnt (s.inst.findOrCreateTask y.task).1 k) (.test (s.inst.findOrCreateTask y.task).2 ys :: rest) +
      timesBegun (s.inst.findOrCreateTask y.task).1.trace k + startTok d false k ≤ _
    simp only [wSum_cons, frEnt]; omega
  | notReady o ob es rest J hg hob h =>
    refine tally (s := s) (g := g) rfl hw (ok k hk) ?_
    have h1 : timesBegun J.trace k = timesBegun s.inst.trace k := h.begun k
    have h3 : wSum (frEnt J k) rest = wSum (frEnt s.inst k) rest := hrest hg
    rw [hg]
    show wSum (frEnt J k) (.enter es :: rest) + timesBegun J.trace k + startTok d false k ≤ _
    simp only [wSum_cons, frEnt]; omega
  | ready o ob es rest J hg hob h hd =>
    refine tally (s := s) (g := g) rfl hw (ok k hk) ?_
    have h1 := h.begun k
    have h3 : wSum (frEnt J k) rest = wSum (frEnt s.inst k) rest := hrest hg
    rw [hg]
    show wSum (frEnt J k) (.push o es :: rest) + timesBegun J.trace k + startTok d false k ≤ _
    simp only [wSum_cons, frEnt]; omega
  | skip o ob es es' n rs rest J hg hob h hr he' hd =>
    refine tally (s := s) (g := g) rfl hw (ok k hk) ?_
    have h1 := h.begun k
    have h3 : wSum (frEnt J k) rest = wSum (frEnt s.inst k) rest := hrest hg
    have h4 := toward_none he' (he.objs o ob hob) hk
    rw [hg]
    show wSum (frEnt J k) (.rows s.gen rs :: .finish ob.task n es' :: .enter es :: rest) + timesBegun J.trace k + startTok d false k ≤ _
    simp only [wSum_cons, frEnt]; omega
  | push o es rest hg =>
    refine tally (s := s) (g := g) rfl hw (ok k hk) ?_
    rw [hg]
    show wSum (frEnt s.inst k) (.enter es :: rest) + timesBegun s.inst.trace k + startTok d false k ≤ _
    simp only [wSum_cons, frEnt]; omega
  | release t rest hg =>
    refine tally (s := s) (g := g) rfl hw (ok k hk) ?_
    have h1 := begun_release s.inst k t
    have h3 : wSum (frEnt (s.inst.release t) k) rest = wSum (frEnt s.inst k) rest := hrest hg
    rw [hg]
    show wSum (frEnt (s.inst.release t) k) rest + timesBegun (s.inst.release t).trace k + startTok d false k ≤ _
    simp only [wSum_cons, frEnt]; omega

end Flow.Conc
