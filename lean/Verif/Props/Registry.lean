import Verif.Model.Registry
import Verif.Proofs.DefinitionSer

/- Accepted task types can be executed: C40. -/

namespace Flow

open Flow.Reg

/-- The flow model that runs a flow has a behavior for the task type. -/
def Executable (s : Registry) (modelId typ : String) : Prop :=
  ∃ f, s.modelOf modelId = some f ∧ (f.behavior typ).isSome

/-- A history without odd registrations: no nil behavior, and no model with an empty name passed to `Register`. -/
structure PlainReg (s : Registry) : Prop where
  valid : ∀ k m, s.validators.get? k = some m → (k = "" → s.dflt = some m) ∧ (k ≠ "" → s.models.get? k = some m)
  some : ∀ f ∈ s.heap, ∀ k b, f.behaviors.get? k = some b → b.isSome

/-- An operation that is not odd in this state. -/
def PlainOp (s : Registry) : Op → Prop
  | .behavior _ _ b => b.isSome
  | .dfltBehavior _ _ b => b.isSome
  | .register m => ∀ f, s.heap[m]? = some f → f.name ≠ ""
  | _ => True

theorem addBehavior_some {f : FModel} {id : String} {b : Behavior} (hb : b.isSome)
    (h : ∀ k c, f.behaviors.get? k = some c → c.isSome) :
    ∀ k c, (f.addBehavior id b).behaviors.get? k = some c → c.isSome := by
  intro k c hc
  unfold FModel.addBehavior at hc
  simp only [AMap.get?_set] at hc
  split at hc
  · cases hc; exact hb
  · exact h k c hc

theorem mem_modify {α : Type} {l : List α} {n : Nat} {g : α → α} {x : α} (h : x ∈ l.modify n g) :
    x ∈ l ∨ ∃ y ∈ l, x = g y := by
  obtain ⟨i, hi⟩ := List.mem_iff_getElem?.1 h
  rw [List.getElem?_modify] at hi
  cases hl : l[i]? with
  | none => rw [hl] at hi; cases hi
  | some y =>
    have hy : y ∈ l := List.mem_iff_getElem?.2 ⟨i, hl⟩
    rw [hl] at hi
    by_cases e : n = i
    · simp [e] at hi; exact Or.inr ⟨y, hy, hi.symm⟩
    · simp [e] at hi; exact Or.inl (hi ▸ hy)

theorem plain_step {s s' : Registry} {o : Op} (h : PlainReg s) (hp : PlainOp s o) (hs : s.step o = some s') : PlainReg s' := by
  cases o with
  | create n =>
    cases hs
    refine ⟨h.valid, ?_⟩
    intro f hf
    rcases List.mem_append.1 hf with hf | hf
    · exact h.some f hf
    · rw [List.mem_singleton.1 hf]; intro k b hb; cases hb
  | behavior m id b =>
    simp only [Registry.step] at hs
    split at hs
    · cases hs
      refine ⟨h.valid, ?_⟩
      intro f hf
      rcases mem_modify hf with hf | ⟨g, hg, e⟩
      · exact h.some f hf
      · subst e; exact addBehavior_some hp (h.some g hg)
    · cases hs
  | dfltBehavior m id b =>
    simp only [Registry.step] at hs
    split at hs
    · cases hs
      refine ⟨h.valid, ?_⟩
      intro f hf
      rcases mem_modify hf with hf | ⟨g, hg, e⟩
      · exact h.some f hf
      · subst e; exact addBehavior_some hp (h.some g hg)
    · cases hs
  | register m =>
    simp only [Registry.step] at hs
    split at hs
    · cases hs
    · rename_i f hf
      have hname := hp f hf
      unfold Registry.register at hs
      split at hs
      · cases hs
      · rename_i hdup
        cases hs
        refine ⟨?_, h.some⟩
        intro k m' hk
        simp only [AMap.get?_set] at hk ⊢
        by_cases e : f.name = k
        · rw [if_pos e] at hk; cases hk
          rw [if_pos e]
          exact ⟨fun e2 => absurd (e.trans e2) hname, fun _ => rfl⟩
        · rw [if_neg e] at hk
          rw [if_neg e]
          exact h.valid k m' hk
  | registerDefault m =>
    simp only [Registry.step] at hs
    split at hs
    · cases hs
    · rename_i f hf
      cases hs
      refine ⟨?_, h.some⟩
      intro k m' hk
      simp only [Registry.registerDefault, AMap.get?_set] at hk ⊢
      by_cases e : "" = k
      · rw [if_pos e] at hk; cases hk
        exact ⟨fun _ => rfl, fun e2 => absurd e.symm e2⟩
      · rw [if_neg e] at hk
        refine ⟨fun e2 => absurd e2.symm e, fun e2 => ?_⟩
        have := (h.valid k m' hk).2 e2
        split
        · exact this
        · rename_i hno
          rw [AMap.get?_set]
          split
          · rename_i e3
            rw [e3, this] at hno
            exact absurd rfl hno
          · exact this

/-- A history all of whose operations are plain. -/
def PlainRun : Registry → List Op → Prop
  | _, [] => True
  | s, o :: os => PlainOp s o ∧ ∀ s', s.step o = some s' → PlainRun s' os

theorem plain_run {s s' : Registry} {os : List Op} (h : PlainReg s) (hp : PlainRun s os) (hs : s.run os = some s') :
    PlainReg s' := by
  induction os generalizing s with
  | nil => cases hs; exact h
  | cons o os ih =>
    simp only [Registry.run] at hs
    cases ho : s.step o with
    | none => rw [ho] at hs; cases hs
    | some s1 =>
      rw [ho] at hs
      exact ih (plain_step h hp.1 ho) (hp.2 s1 ho) hs

/-- **C40** (explicit task types, at the time the definition is accepted) After every history of plain
registrations, starting with nothing registered: if a task type that is written in the description is accepted,
the model the flow runs with has a behavior for it. -/
theorem C40_accepted_partial (os : List Op) (s : Registry) (hrun : Registry.run {} os = some s) (hp : PlainRun {} os)
    (modelId typ : String) (htyp : typ ≠ "") (hacc : s.accepts modelId typ = true) : Executable s modelId typ := by
  have h : PlainReg s := plain_run ⟨(fun _ _ h => by cases h), (fun _ h => by cases h)⟩ hp hrun
  unfold Registry.accepts at hacc
  rw [if_neg htyp] at hacc
  unfold Registry.validType at hacc
  cases hv : s.validators.get? modelId with
  | none => rw [hv] at hacc; cases hacc
  | some m =>
    rw [hv] at hacc
    simp only at hacc
    cases hf : s.heap[m]? with
    | none => rw [hf] at hacc; cases hacc
    | some f =>
      rw [hf] at hacc
      simp only [FModel.isValid, htyp, false_and, if_false] at hacc
      refine ⟨f, ?_, ?_⟩
      · unfold Registry.modelOf
        have := h.valid modelId m hv
        by_cases e : modelId = ""
        · rw [if_pos e, this.1 e]; exact hf
        · rw [if_neg e, this.2 e]; exact hf
      · unfold FModel.behavior
        rw [if_neg htyp]
        cases hb : f.behaviors.get? typ with
        | none => rw [hb] at hacc; cases hacc
        | some b => exact h.some f (List.mem_of_getElem? hf) typ b hb

/-- **C40** What the validator of the registered models says about any task type, also the empty one, if no behavior is
registered under the empty name: if the type is valid, the model the flow runs with has a behavior for it. Partial: definitions are accepted without asking it if the type is empty. -/
theorem C40_valid_partial (os : List Op) (s : Registry) (hrun : Registry.run {} os = some s) (hp : PlainRun {} os)
    (hn : ∀ f ∈ s.heap, f.behaviors.get? "" = none) (modelId typ : String) (hacc : s.validType modelId typ = true) : Executable s modelId typ := by
  by_cases htyp : typ = ""
  · subst htyp
    have h : PlainReg s := plain_run ⟨(fun _ _ h => by cases h), (fun _ h => by cases h)⟩ hp hrun
    unfold Registry.validType at hacc
    cases hv : s.validators.get? modelId with
    | none => rw [hv] at hacc; cases hacc
    | some m =>
      rw [hv] at hacc
      simp only at hacc
      cases hf : s.heap[m]? with
      | none => rw [hf] at hacc; cases hacc
      | some f =>
        rw [hf] at hacc
        refine ⟨f, ?_, ?_⟩
        · unfold Registry.modelOf
          have := h.valid modelId m hv
          by_cases e : modelId = ""
          · rw [if_pos e, this.1 e]; exact hf
          · rw [if_neg e, this.2 e]; exact hf
        · unfold FModel.behavior
          rw [if_pos rfl]
          simp only [FModel.isValid, true_and] at hacc
          split at hacc
          · assumption
          · cases hb : f.behaviors.get? "" with
            | none => rw [hb] at hacc; cases hacc
            | some b => rw [hn f (List.mem_of_getElem? hf)] at hb; cases hb
  · exact C40_accepted_partial os s hrun hp modelId typ htyp (by unfold Registry.accepts; rw [if_neg htyp]; exact hacc)

/-- Registering only adds: a behavior is never removed from a model, and a named model is never replaced. -/
theorem executable_step {s s' : Registry} {o : Op} (hp : PlainOp s o) (hs : s.step o = some s') {modelId typ : String}
    (hm : modelId ≠ "" ∨ ∀ m, o ≠ .registerDefault m) (h : Executable s modelId typ) : Executable s' modelId typ := by
  obtain ⟨f, hf, hb⟩ := h
  have heap : ∀ (g : FModel → FModel) (m : Nat), (∀ x : FModel, (x.behavior typ).isSome → ((g x).behavior typ).isSome) →
      Executable { s with heap := s.heap.modify m g } modelId typ := by
    intro g m hg
    unfold Executable Registry.modelOf
    unfold Registry.modelOf at hf
    split at hf
    · rename_i e
      cases hd : s.dflt with
      | none => rw [hd] at hf; cases hf
      | some n =>
        rw [hd] at hf
        simp only [Option.bind_some] at hf
        simp only [if_pos e, Option.bind_some, List.getElem?_modify, hf]
        by_cases e2 : m = n
        · exact ⟨g f, by simp [e2], hg f hb⟩
        · exact ⟨f, by simp [e2], hb⟩
    · rename_i e
      cases hd : s.models.get? modelId with
      | none => rw [hd] at hf; cases hf
      | some n =>
        rw [hd] at hf
        simp only [Option.bind_some] at hf
        simp only [if_neg e, Option.bind_some, List.getElem?_modify, hf]
        by_cases e2 : m = n
        · exact ⟨g f, by simp [e2], hg f hb⟩
        · exact ⟨f, by simp [e2], hb⟩
  have addB : ∀ (id : String) (b : Behavior), b.isSome → ∀ x : FModel, (x.behavior typ).isSome →
      ((x.addBehavior id b).behavior typ).isSome := by
    intro id b hb x hx
    unfold FModel.behavior at hx ⊢
    split
    · rename_i e; rw [if_pos e] at hx; exact hx
    · rename_i e
      rw [if_neg e] at hx
      simp only [FModel.addBehavior, AMap.get?_set]
      split
      · exact hb
      · exact hx
  cases o with
  | create n =>
    cases hs
    refine ⟨f, ?_, hb⟩
    unfold Registry.modelOf at hf ⊢
    have ext : ∀ i : Nat, s.heap[i]? = some f → (s.heap ++ [{ name := n }])[i]? = some f := by
      intro i hi
      obtain ⟨hlt, _⟩ := List.getElem?_eq_some_iff.1 hi
      rw [List.getElem?_append_left hlt]; exact hi
    split at hf
    · rename_i e
      rw [if_pos e]
      cases hd : s.dflt with
      | none => rw [hd] at hf; cases hf
      | some n => rw [hd] at hf; exact ext n hf
    · rename_i e
      rw [if_neg e]
      cases hd : s.models.get? modelId with
      | none => rw [hd] at hf; cases hf
      | some n => rw [hd] at hf; exact ext n hf
  | behavior m id b =>
    simp only [Registry.step] at hs
    split at hs
    · cases hs; exact heap _ m (addB id b hp)
    · cases hs
  | dfltBehavior m id b =>
    simp only [Registry.step] at hs
    split at hs
    · cases hs
      refine heap _ m ?_
      intro x hx
      have := addB id b hp x hx
      unfold FModel.addDefault
      unfold FModel.behavior at this ⊢
      split
      · exact hp
      · rename_i e; rw [if_neg e] at this; exact this
    · cases hs
  | register m =>
    simp only [Registry.step] at hs
    split at hs
    · cases hs
    · rename_i g hg
      unfold Registry.register at hs
      split at hs
      · cases hs
      · rename_i hdup
        cases hs
        refine ⟨f, ?_, hb⟩
        unfold Registry.modelOf at hf ⊢
        split at hf
        · rename_i e; rw [if_pos e]; exact hf
        · rename_i e
          rw [if_neg e]
          simp only [AMap.get?_set]
          split
          · rename_i e2
            cases hd : s.models.get? modelId with
            | none => rw [hd] at hf; cases hf
            | some n => rw [e2, hd] at hdup; exact absurd rfl hdup
          · exact hf
  | registerDefault m =>
    have hne : modelId ≠ "" := by
      rcases hm with h | h
      · exact h
      · exact absurd rfl (h m)
    simp only [Registry.step] at hs
    split at hs
    · cases hs
    · rename_i g hg
      cases hs
      refine ⟨f, ?_, hb⟩
      unfold Registry.modelOf at hf ⊢
      rw [if_neg hne] at hf ⊢
      simp only [Registry.registerDefault]
      split
      · exact hf
      · rename_i hno
        rw [AMap.get?_set]
        split
        · rename_i e
          cases hd : s.models.get? modelId with
          | none => rw [hd] at hf; cases hf
          | some n => rw [e, hd] at hno; exact absurd rfl hno
        · exact hf

/-- **C40** (later registrations) What could be executed once can be executed after any further plain
registrations, unless the flow names no model and the default model is replaced. -/
theorem C40_stable_partial (os : List Op) (s s' : Registry) (hrun : s.run os = some s') (hp : PlainRun s os)
    (modelId typ : String) (hm : modelId ≠ "" ∨ ∀ m, Op.registerDefault m ∉ os) (h : Executable s modelId typ) :
    Executable s' modelId typ := by
  induction os generalizing s with
  | nil => cases hrun; exact h
  | cons o os ih =>
    simp only [Registry.run] at hrun
    cases ho : s.step o with
    | none => rw [ho] at hrun; cases hrun
    | some s1 =>
      rw [ho] at hrun
      refine ih s1 hrun (hp.2 s1 ho) ?_ (executable_step hp.1 ho ?_ h)
      · rcases hm with h | h
        · exact Or.inl h
        · exact Or.inr (fun m hmem => h m (List.mem_cons_of_mem _ hmem))
      · rcases hm with h | h
        · exact Or.inl h
        · exact Or.inr (fun m e => h m (e ▸ List.mem_cons_self))

/-- What the packages of this project do: the simple model is built and registered when its package is loaded
(model/simple/model.go lines 11-23), and a second copy becomes the default when the flow action is initialized
(action.go line 121). -/
def simpleModel (m : Nat) : List Op :=
  [.create "flogo-simple", .dfltBehavior m "basic" (some 1), .behavior m "iterator" (some 2), .behavior m "doWhile" (some 3)]

def projectStart : List Op := simpleModel 0 ++ [.register 0] ++ simpleModel 1 ++ [.registerDefault 1]

/-- The registrations of the project are plain, and the type `iterator` is accepted with and without naming the
model. -/
example : PlainRun {} projectStart := by
  refine ⟨trivial, fun s hs => ?_⟩; cases hs
  refine ⟨rfl, fun s hs => ?_⟩; cases hs
  refine ⟨rfl, fun s hs => ?_⟩; cases hs
  refine ⟨rfl, fun s hs => ?_⟩; cases hs
  refine ⟨fun f hf => by cases hf; decide, fun s hs => ?_⟩; cases hs
  refine ⟨trivial, fun s hs => ?_⟩; cases hs
  refine ⟨rfl, fun s hs => ?_⟩; cases hs
  refine ⟨rfl, fun s hs => ?_⟩; cases hs
  refine ⟨rfl, fun s hs => ?_⟩; cases hs
  exact ⟨trivial, fun s hs => trivial⟩

example : (Registry.run {} projectStart).any (fun s =>
    s.accepts "" "iterator" && s.accepts "flogo-simple" "doWhile" && !s.accepts "" "loop") = true := by rfl

/-- **C40** is false in general. (1) A task without a type is always accepted, also if the model has no default
behavior. (2) It is accepted although the named model does not exist. (3) If the default model is replaced after a
definition was accepted, an accepted type may have no behavior any more. (4) A model with an empty name that is
registered validates the flows of the default model. -/
theorem C40_negation :
    (∃ os s, Registry.run {} os = some s ∧ PlainRun {} os ∧ s.accepts "m" "" = true ∧
      (s.modelOf "m").isSome ∧ ¬ Executable s "m" "") ∧
    (∃ os s, Registry.run {} os = some s ∧ PlainRun {} os ∧ s.accepts "m" "" = true ∧ s.modelOf "m" = none) ∧
    (∃ os s s', Registry.run {} os = some s ∧ s.accepts "" "x" = true ∧ Executable s "" "x" ∧
      s.run [.registerDefault 1] = some s' ∧ ¬ Executable s' "" "x") ∧
    (∃ os s, Registry.run {} os = some s ∧ s.accepts "" "x" = true ∧ (s.modelOf "").isSome ∧ ¬ Executable s "" "x") := by
  refine ⟨⟨[.create "m", .register 0], _, rfl, ?_, rfl, rfl, ?_⟩, ⟨[], _, rfl, trivial, rfl, rfl⟩,
    ⟨[.create "d", .create "e", .behavior 0 "x" (some 1), .registerDefault 0], _, _, rfl, rfl,
      ⟨{ name := "d", behaviors := [("x", some 1)] }, rfl, rfl⟩, rfl, ?_⟩,
    ⟨[.create "d", .create "", .behavior 1 "x" (some 1), .registerDefault 0, .register 1], _, rfl, rfl, rfl, ?_⟩⟩
  · refine ⟨trivial, fun s hs => ?_⟩; cases hs
    exact ⟨fun f hf => by cases hf; decide, fun _ _ => trivial⟩
  · rintro ⟨f, hf, hb⟩; cases hf; cases hb
  · rintro ⟨f, hf, hb⟩; cases hf; cases hb
  · rintro ⟨f, hf, hb⟩; cases hf; cases hb

/-- **C40** for whole definitions: if a description is accepted by the validator of the registry, every task of
the built definition whose type is written out can be executed by the model the definition runs with. -/
theorem C40_definition_partial (os : List Op) (s : Registry) (hrun : Registry.run {} os = some s)
    (hp : PlainRun {} os) (env : Ser.SerEnv) (hv : env.validType = s.validType) (rep : Ser.DefRep) (d : Ser.BDef)
    (h : Ser.newDefinition env rep = .ok d) (r : Ser.TaskRep)
    (hr : r ∈ rep.tasks ∨ ∃ eh, rep.handler = some eh ∧ r ∈ eh.tasks) (ht : r.type ≠ "") :
    Executable s rep.modelId r.type := by
  have hok : ∃ b, Ser.createTask env rep.modelId r = .ok b := by
    unfold Ser.newDefinition at h
    split at h
    · rename_i d' hb
      unfold Ser.build at hb
      obtain ⟨main, hm, hb⟩ := Ser.bind_ok hb
      obtain ⟨hh, hh', _⟩ := Ser.bind_ok hb
      rcases hr with hr | ⟨eh, heh, hr⟩
      · unfold Ser.createGraph at hm
        obtain ⟨m, hm, _⟩ := Ser.bind_ok hm
        exact Ser.createTasks_all hm r hr
      · unfold Ser.createHandler at hh'
        rw [heh] at hh'
        obtain ⟨g, hg, _⟩ := Ser.map_ok hh'
        unfold Ser.createGraph at hg
        obtain ⟨m, hm, _⟩ := Ser.bind_ok hg
        exact Ser.createTasks_all hm r hr
    · cases h
    · cases h
  obtain ⟨b, hb⟩ := hok
  have := (Ser.createTask_rep hb).2.2.2
  refine C40_accepted_partial os s hrun hp rep.modelId r.type ht ?_
  unfold Registry.accepts
  rw [if_neg ht]
  rcases this with h | h
  · exact absurd h ht
  · rw [← hv]; exact h

/-! ### C98 -/

/-- Some operation of the history passes a model with this name to `Register`. -/
def RegisteredAs : Registry → List Op → String → Prop
  | _, [], _ => False
  | s, o :: os, k => (∃ m f, o = .register m ∧ s.heap[m]? = some f ∧ f.name = k) ∨ ∃ s', s.step o = some s' ∧ RegisteredAs s' os k

theorem validators_step {s s' : Registry} {o : Op} (hs : s.step o = some s') :
    (∀ k, (s.validators.get? k).isSome → (s'.validators.get? k).isSome) ∧
    ((s.dflt.isSome → (s.validators.get? "").isSome) → s'.dflt.isSome → (s'.validators.get? "").isSome) ∧
    ∀ m f, o = .register m → s.heap[m]? = some f → (s'.validators.get? f.name).isSome := by
  have hset : ∀ (v : AMap String Nat) (n : String) (m : Nat) (k : String), (v.get? k).isSome → ((v.set n m).get? k).isSome := by
    intro v n m k h
    rw [AMap.get?_set]
    split
    · rfl
    · exact h
  cases o with
  | create n => cases hs; exact ⟨fun _ h => h, fun h => h, (fun _ _ h => nomatch h)⟩
  | behavior m id b =>
    simp only [Registry.step] at hs
    split at hs
    · cases hs; exact ⟨fun _ h => h, fun h => h, (fun _ _ h => nomatch h)⟩
    · cases hs
  | dfltBehavior m id b =>
    simp only [Registry.step] at hs
    split at hs
    · cases hs; exact ⟨fun _ h => h, fun h => h, (fun _ _ h => nomatch h)⟩
    · cases hs
  | register m =>
    simp only [Registry.step] at hs
    split at hs
    · cases hs
    · rename_i f hf
      unfold Registry.register at hs
      split at hs
      · cases hs
      · cases hs
        refine ⟨fun k h => hset _ _ _ _ h, fun h hd => hset _ _ _ _ (h hd), fun m' g e hg => ?_⟩
        cases e
        rw [hf] at hg
        cases hg
        show ((s.validators.set f.name m).get? f.name).isSome
        rw [AMap.get?_set_self]
        rfl
  | registerDefault m =>
    simp only [Registry.step] at hs
    split at hs
    · cases hs
    · cases hs
      refine ⟨fun k h => hset _ _ _ _ h, fun _ _ => ?_, (fun _ _ h => nomatch h)⟩
      show ((s.validators.set "" m).get? "").isSome
      rw [AMap.get?_set_self]
      rfl

theorem validators_run {s s' : Registry} {os : List Op} (hs : s.run os = some s') (hd : s.dflt.isSome → (s.validators.get? "").isSome) :
    (∀ k, (s.validators.get? k).isSome ∨ RegisteredAs s os k → (s'.validators.get? k).isSome) ∧
      (s'.dflt.isSome → (s'.validators.get? "").isSome) := by
  induction os generalizing s with
  | nil => cases hs; exact ⟨fun k h => h.resolve_right (fun h => h), hd⟩
  | cons o os ih =>
    simp only [Registry.run] at hs
    cases ho : s.step o with
    | none => rw [ho] at hs; cases hs
    | some s1 =>
      rw [ho] at hs
      obtain ⟨h1, h2, h3⟩ := validators_step ho
      obtain ⟨h4, h5⟩ := ih hs (h2 hd)
      refine ⟨fun k h => h4 k ?_, h5⟩
      rcases h with h | ⟨m, f, h, hf, hk⟩ | ⟨s2, h, hk⟩
      · exact .inl (h1 k h)
      · exact .inl (hk ▸ h3 m f h hf)
      · rw [ho] at h; cases h; exact .inr hk

/-- **C98** After every history of plain registrations: a task type for which the model of the flow has a behavior is valid, also the
empty one, if the flow names no model or a model that was passed to `Register`.

Partial: not if the named model was only made the default model. -/
theorem C98_accepted_partial (os : List Op) (s : Registry) (hrun : Registry.run {} os = some s) (hp : PlainRun {} os)
    (modelId typ : String) (hm : modelId = "" ∨ RegisteredAs {} os modelId) (he : Executable s modelId typ) :
    s.validType modelId typ = true ∧ s.accepts modelId typ = true := by
  have h : PlainReg s := plain_run ⟨(fun _ _ h => by cases h), (fun _ h => by cases h)⟩ hp hrun
  obtain ⟨h1, h2⟩ := validators_run hrun (fun h => nomatch h)
  obtain ⟨f, hf, hb⟩ := he
  have hvalid : f.isValid typ = true := by
    unfold FModel.behavior at hb
    unfold FModel.isValid
    by_cases e : typ = ""
    · rw [if_pos e] at hb
      rw [if_pos ⟨e, hb⟩]
    · rw [if_neg e] at hb
      rw [if_neg (fun h => e h.1)]
      cases hx : f.behaviors.get? typ with
      | none => rw [hx] at hb; cases hb
      | some b => rfl
  have hv : s.validType modelId typ = true := by
    unfold Registry.validType
    unfold Registry.modelOf at hf
    have hsome : (s.validators.get? modelId).isSome := by
      rcases hm with hm | hm
      · rw [if_pos hm] at hf
        rw [hm]
        refine h2 ?_
        cases hd : s.dflt with
        | none => rw [hd] at hf; cases hf
        | some m => rfl
      · exact h1 _ (.inr hm)
    cases hv : s.validators.get? modelId with
    | none => rw [hv] at hsome; cases hsome
    | some m =>
      obtain ⟨h3, h4⟩ := h.valid modelId m hv
      dsimp only
      have hheap : s.heap[m]? = some f := by
        by_cases e : modelId = ""
        · rw [if_pos e, h3 e] at hf; exact hf
        · rw [if_neg e, h4 e] at hf; exact hf
      rw [hheap]
      exact hvalid
  refine ⟨hv, ?_⟩
  unfold Registry.accepts
  split
  · rfl
  · exact hv

/-- **C98** for descriptions: then the check of the task type rejects nothing, whatever else the description of the task says. -/
theorem C98_task_partial (os : List Op) (s : Registry) (hrun : Registry.run {} os = some s) (hp : PlainRun {} os)
    (modelId : String) (hm : modelId = "" ∨ RegisteredAs {} os modelId) (env : Ser.SerEnv) (hv : env.validType = s.validType)
    (r : Ser.TaskRep) (he : Executable s modelId r.type) :
    Ser.createTask env modelId r = Ser.createTask { env with validType := fun _ _ => true } modelId r := by
  have h := (C98_accepted_partial os s hrun hp modelId r.type hm he).1
  rw [← hv] at h
  unfold Ser.createTask
  rw [if_neg (fun hx => by rw [h] at hx; cases hx.2), if_neg (fun hx => by cases hx.2)]
  rfl

-- non-trivial instance: a default model and a second one, which has the task type "x"
example : ∃ os s, Registry.run {} os = some s ∧ PlainRun {} os ∧ RegisteredAs {} os "m" ∧ Executable s "m" "x" ∧ Executable s "" "" :=
  ⟨[.create "d", .create "m", .dfltBehavior 0 "b" (some 1), .behavior 1 "x" (some 2), .registerDefault 0, .register 1], _, rfl,
    ⟨trivial, fun _ h1 => by cases h1; exact ⟨trivial, fun _ h2 => by cases h2; exact ⟨rfl, fun _ h3 => by cases h3; exact ⟨rfl, fun _ h4 => by
      cases h4; exact ⟨trivial, fun _ h5 => by cases h5; exact ⟨fun f hf => by cases hf; decide, fun _ h6 => trivial⟩⟩⟩⟩⟩⟩,
    .inr ⟨_, rfl, .inr ⟨_, rfl, .inr ⟨_, rfl, .inr ⟨_, rfl, .inr ⟨_, rfl, .inl ⟨1, _, rfl, rfl, rfl⟩⟩⟩⟩⟩⟩, ⟨_, rfl, rfl⟩, ⟨_, rfl, rfl⟩⟩

/-- **C98** is false in general: a flow that names the default model, which was registered as such only, is rejected because of its
task types, although this model would run it; without the name it is accepted. -/
theorem C98_negation : ∃ os s, Registry.run {} os = some s ∧ PlainRun {} os ∧ Executable s "m" "x" ∧ s.accepts "m" "x" = false ∧
    s.modelOf "m" = s.modelOf "" ∧ s.accepts "" "x" = true :=
  ⟨[.create "m", .behavior 0 "x" (some 1), .registerDefault 0], _, rfl,
    ⟨trivial, fun _ h1 => by cases h1; exact ⟨rfl, fun _ h2 => by cases h2; exact ⟨trivial, fun _ _ => trivial⟩⟩⟩, ⟨_, rfl, rfl⟩, rfl, rfl, rfl⟩

end Flow
