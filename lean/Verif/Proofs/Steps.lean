import Verif.Proofs.Fail
import Verif.Proofs.Results

/-
What one step does to the links and tasks of an instance: entering a task, skipping it, finishing it.
-/

namespace Flow
open Spec

/-- Entering a task keeps the status of every link. -/
theorem enterTask_linkSt (I : Inst) (t : TaskRef) (l : LinkId) : (I.enterTask t).1.linkSt l = I.linkSt l := by
  have h0 : (I.findOrCreateTask t).1.linkSt l = I.linkSt l := by
    unfold Inst.findOrCreateTask; split <;> rfl
  unfold Inst.enterTask
  dsimp only
  split
  · exact h0
  · split <;> simp only [setTaskStatus_linkSt, findLinks_linkSt] <;> exact h0

/-- The object of a task that is entered. -/
theorem findOrCreateTask_obj {I : Inst} (ok : InstOK I) (t : TaskRef) :
    ∃ ob, (I.findOrCreateTask t).1.objs[(I.findOrCreateTask t).2]? = some ob ∧ ob.task.id = t.id ∧
      ((∀ o ob, I.tasks.get? t.id = some o → I.objs[o]? = some ob → ob.task = t) → ob.task = t) := by
  unfold Inst.findOrCreateTask
  split
  · rename_i o ho
    obtain ⟨ob, h1, h2⟩ := ok.tasks _ _ ho
    exact ⟨ob, h1, h2, fun h => h o ob ho h1⟩
  · exact ⟨{ task := t }, by simp, rfl, fun _ => rfl⟩

/-- Statuses of the incoming links, as the specification reads them. -/
theorem decision_eval {I : Inst} (ok : InstOK I) (ls : List LinkDef) :
    enterDecision (ls.map (fun l => I.linkSt l.id)) = .eval ↔ AllDecided I.trace ls ∧ (ls = [] ∨ SomeFollowed I.trace ls) := by
  rw [enterDecision_eval]
  have h1 : (∀ s ∈ ls.map (fun l => I.linkSt l.id), decided s) ↔ AllDecided I.trace ls := by
    constructor
    · intro h l hl hc
      have := h _ (List.mem_map.2 ⟨l, hl, rfl⟩)
      rw [ok.links, hc] at this; exact this
    · intro h s hs
      obtain ⟨l, hl, rfl⟩ := List.mem_map.1 hs
      have := h l hl
      rw [← ok.links] at this
      cases hc : I.linkSt l.id <;> simp_all [decided]
  have h2 : LinkStatus.true ∈ ls.map (fun l => I.linkSt l.id) ↔ SomeFollowed I.trace ls := by
    constructor
    · intro h
      obtain ⟨l, hl, hs⟩ := List.mem_map.1 h
      exact ⟨l, hl, by rw [← ok.links]; exact hs⟩
    · rintro ⟨l, hl, hs⟩
      exact List.mem_map.2 ⟨l, hl, by rw [ok.links]; exact hs⟩
  rw [h1, h2]; simp

theorem decision_skip {I : Inst} (ok : InstOK I) (ls : List LinkDef) :
    enterDecision (ls.map (fun l => I.linkSt l.id)) = .skip ↔ ls ≠ [] ∧ AllDecided I.trace ls ∧ ¬ SomeFollowed I.trace ls := by
  have h0 := decision_eval ok ls
  rw [enterDecision_skip]
  have h1 : (∀ s ∈ ls.map (fun l => I.linkSt l.id), decided s) ↔ AllDecided I.trace ls := by
    constructor
    · intro h l hl hc
      have := h _ (List.mem_map.2 ⟨l, hl, rfl⟩)
      rw [ok.links, hc] at this; exact this
    · intro h s hs
      obtain ⟨l, hl, rfl⟩ := List.mem_map.1 hs
      have := h l hl
      rw [← ok.links] at this
      cases hc : I.linkSt l.id <;> simp_all [decided]
  have h2 : LinkStatus.true ∈ ls.map (fun l => I.linkSt l.id) ↔ SomeFollowed I.trace ls := by
    constructor
    · intro h
      obtain ⟨l, hl, hs⟩ := List.mem_map.1 h
      exact ⟨l, hl, by rw [← ok.links]; exact hs⟩
    · rintro ⟨l, hl, hs⟩
      exact List.mem_map.2 ⟨l, hl, by rw [ok.links]; exact hs⟩
  rw [h1, h2]; simp

/-- Everything about entering a task. -/
theorem enterTask_full {I : Inst} (ok : InstOK I) (t : TaskRef)
    (hs : ∀ o ob, I.tasks.get? t.id = some o → I.objs[o]? = some ob → ob.task = t) :
    ∃ (I2 : Inst) (ob : Obj), let o := (I.findOrCreateTask t).2
      Ext I I2 ∧ Calm I I2 ∧ I2.objs[o]? = some ob ∧ ob.task = t ∧ I2.tasks = (I.findOrCreateTask t).1.tasks ∧
      (I.enterTask t).2.1 = o ∧
      (((I.enterTask t).2.2 = .eval ∧ AllDecided I.trace (I.defn.fromLinks t) ∧
          (I.defn.fromLinks t = [] ∨ SomeFollowed I.trace (I.defn.fromLinks t)) ∧ (I.enterTask t).1 = I2.setTaskStatus o .ready) ∨
       ((I.enterTask t).2.2 = .skip ∧ I.defn.fromLinks t ≠ [] ∧ AllDecided I.trace (I.defn.fromLinks t) ∧
          ¬ SomeFollowed I.trace (I.defn.fromLinks t) ∧ (I.enterTask t).1 = I2.setTaskStatus o .skipped) ∨
       ((I.enterTask t).2.2 = .notReady ∧ ¬ AllDecided I.trace (I.defn.fromLinks t) ∧ ob.status = .entered ∧ (I.enterTask t).1 = I2)) := by
  obtain ⟨ob, h1, _, h3⟩ := findOrCreateTask_obj ok t
  have ht : ob.task = t := h3 hs
  have hd : (I.findOrCreateTask t).1.defn = I.defn := (Ext.findOrCreateTask t).defn
  have hl0 : ∀ l, (I.findOrCreateTask t).1.linkSt l = I.linkSt l := by
    intro l; unfold Inst.findOrCreateTask; split <;> rfl
  have e1 : Ext I ((I.findOrCreateTask t).1.setTaskStatus (I.findOrCreateTask t).2 .entered) :=
    (Ext.findOrCreateTask t).trans Ext.enter
  have e2 := e1.trans (Ext.findLinks (I.defn.fromLinks t))
  have c2 := ((Calm.findOrCreateTask I t).trans (Calm.setTaskStatus _ (I.findOrCreateTask t).2 .entered)).trans
    (Calm.findLinks _ (I.defn.fromLinks t))
  have hob2 := (getElem?_setTaskStatus (st := .entered) h1).2
  obtain ⟨ob2, ho2, ht2⟩ := (Ext.findLinks (I.defn.fromLinks t)).objs _ _ hob2
  have hls : ∀ l, (((I.findOrCreateTask t).1.setTaskStatus (I.findOrCreateTask t).2 .entered).findLinks (I.defn.fromLinks t)).linkSt l = I.linkSt l := by
    intro l; rw [findLinks_linkSt, setTaskStatus_linkSt, hl0]
  have htk : ∀ (J : Inst) (ls : List LinkDef), (J.findLinks ls).tasks = J.tasks := by
    intro J ls
    unfold Inst.findLinks
    induction ls generalizing J with
    | nil => rfl
    | cons x xs ih => rw [List.foldl_cons, ih]; unfold Inst.findLink; split <;> rfl
  have hfo : ∀ (J : Inst) (ls : List LinkDef), (J.findLinks ls).objs = J.objs := by
    intro J ls
    unfold Inst.findLinks
    induction ls generalizing J with
    | nil => rfl
    | cons x xs ih => rw [List.foldl_cons, ih]; unfold Inst.findLink; split <;> rfl
  have hen : ob2.status = .entered := by
    rw [hfo, hob2] at ho2; cases ho2; rfl
  have hst : ∀ (J : Inst) o s, (J.setTaskStatus o s).tasks = J.tasks := by
    intro J o s; unfold Inst.setTaskStatus; split <;> rfl
  refine ⟨((I.findOrCreateTask t).1.setTaskStatus (I.findOrCreateTask t).2 .entered).findLinks (I.defn.fromLinks t), ob2,
    e2, c2, ho2, ht2.trans ht, by rw [htk, hst], ?_⟩
  have hev := decision_eval ok (I.defn.fromLinks t)
  have hsk := decision_skip ok (I.defn.fromLinks t)
  unfold Inst.enterTask
  dsimp only
  rw [h1]
  dsimp only
  rw [ht, hd]
  simp only [hls]
  have hnr := enterDecision_notReady ((I.defn.fromLinks t).map (fun l => I.linkSt l.id))
  cases hdec : enterDecision ((I.defn.fromLinks t).map (fun l => I.linkSt l.id)) with
  | eval =>
    have := hev.1 hdec
    exact ⟨rfl, Or.inl ⟨rfl, this.1, this.2, rfl⟩⟩
  | skip =>
    have := hsk.1 hdec
    exact ⟨rfl, Or.inr (Or.inl ⟨rfl, this.1, this.2.1, this.2.2, rfl⟩)⟩
  | notReady =>
    refine ⟨rfl, Or.inr (Or.inr ⟨rfl, ?_, hen, rfl⟩)⟩
    intro had
    rcases Classical.em (I.defn.fromLinks t = [] ∨ SomeFollowed I.trace (I.defn.fromLinks t)) with h | h
    · rw [hev.2 ⟨had, h⟩] at hdec; cases hdec
    · rw [hsk.2 ⟨fun hc => h (Or.inl hc), had, fun hc => h (Or.inr hc)⟩] at hdec; cases hdec

end Flow
