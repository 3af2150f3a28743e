import Verif.Spec.Setup
import Verif.Proofs.Base
import Verif.Spec.Plain

/- C106: an application uses its own flows and settings. -/

namespace Flow
open Setup Spec.Setup
open Spec (tk)

namespace SetupP

variable {L : Lib} {p : Proc} {k : Pkg} {a : App} {m : Mode}

theorem ofName_eq (y : String) : Mode.ofName y =
    if y = "off" then some .off else if y = "full" then some .full else if y = "step" then some .step
    else if y = "snapshot" then some .snapshot else if y = "debugger" then some .debugger else none := by
  unfold Mode.ofName
  split <;> simp_all

theorem initAction_asked (L : Lib) (s : RtSettings) :
    asked L s = if (initAction L.lower L.fold s).finished then some (initAction L.lower L.fold s).mode else none := by
  unfold asked initAction
  cases s.mode with
  | none =>
    dsimp only
    cases L.fold s.stepMode <;> cases L.fold s.snapshotMode <;> rfl
  | some x =>
    dsimp only [toRecordingMode]
    rw [← ofName_eq]
    rcases Option.eq_none_or_eq_some (Mode.ofName (L.lower x)) with h | ⟨k, h⟩ <;> simp [h]

theorem initialize_some {x : Nat} (h : (p.vars k).manager = some x) : p.initialize L k a = p := by
  unfold Proc.initialize; rw [h]

/-- The first initialisation of a package with a recording mode that exists. -/
theorem initialize_none (h : p.vars k = {}) (hm : asked L a.settings = some m) :
    p.initialize L k a = { p.setVars k { manager := some p.next, recorder := a.recorder, mode := m } with
      lookup := some (p.next, a.resources)
      tracking := if a.recorder.isSome && m.recordSteps then some m else p.tracking
      next := p.next + 1 } := by
  rw [initAction_asked] at hm
  unfold Proc.initialize
  rw [h]
  dsimp only
  split at hm
  · rename_i hf
    cases hm
    rw [if_pos hf]
    cases a.recorder <;> rfl
  · cases hm

/-- Nothing but the application `a` with mode `m` has been set up. -/
structure Own (a : App) (m : Mode) (p : Proc) : Prop where
  vars : ∀ k, p.vars k = {} ∨ SetUp p k a m
  lookup : (∃ k, SetUp p k a m) → ∃ x, p.lookup = some (x, a.resources)
  tracking : (∃ k, SetUp p k a m) → p.tracking = if a.recorder.isSome && m.recordSteps then some m else none
  tracking0 : p.tracking = none ∨ p.tracking = if a.recorder.isSome && m.recordSteps then some m else none

theorem Own.init (hm : asked L a.settings = some m) (h : Own a m p) (k : Pkg) :
    Own a m (p.initialize L k a) ∧ SetUp (p.initialize L k a) k a m ∧ ∀ j, SetUp p j a m → SetUp (p.initialize L k a) j a m := by
  rcases h.vars k with hv | hs
  · rw [initialize_none hv hm]
    have hk : ∀ j, j = k → SetUp { p.setVars k { manager := some p.next, recorder := a.recorder, mode := m } with
        lookup := some (p.next, a.resources)
        tracking := if a.recorder.isSome && m.recordSteps then some m else p.tracking
        next := p.next + 1 } j a m := by
      intro j hj
      subst hj
      constructor <;> simp [Proc.setVars]
    have ho : ∀ j, j ≠ k → SetUp p j a m → SetUp { p.setVars k { manager := some p.next, recorder := a.recorder, mode := m } with
        lookup := some (p.next, a.resources)
        tracking := if a.recorder.isSome && m.recordSteps then some m else p.tracking
        next := p.next + 1 } j a m := by
      intro j hj h1
      constructor
      · simpa [Proc.setVars, hj] using h1.manager
      · simpa [Proc.setVars, hj] using h1.recorder
      · simpa [Proc.setVars, hj] using h1.mode
    have ht : (if a.recorder.isSome && m.recordSteps then some m else p.tracking) = if a.recorder.isSome && m.recordSteps then some m else none := by
      split
      · rfl
      · rename_i hn
        rcases h.tracking0 with h1 | h1
        · exact h1
        · rw [h1, if_neg hn]
    refine ⟨⟨fun j => ?_, fun _ => ⟨_, rfl⟩, fun _ => ht, .inr ht⟩, hk k rfl, fun j hj => ?_⟩
    · by_cases hj : j = k
      · exact .inr (hk j hj)
      · rcases h.vars j with h1 | h1
        · left; simp [Proc.setVars, hj, h1]
        · exact .inr (ho j hj h1)
    · by_cases hjk : j = k
      · exact hk j hjk
      · exact ho j hjk hj
  · obtain ⟨x, hx⟩ := Option.ne_none_iff_exists'.mp hs.manager
    rw [initialize_some hx]
    exact ⟨h, hs, fun _ h => h⟩

theorem Own.initAll (hm : asked L a.settings = some m) (l : List (Pkg × App)) : ∀ {p}, Own a m p → (∀ x ∈ l, x.2 = a) →
    Own a m (p.initAll L l) ∧ (∀ j, SetUp p j a m → SetUp (p.initAll L l) j a m) ∧ ∀ k ∈ l.map (·.1), SetUp (p.initAll L l) k a m := by
  induction l with
  | nil => intro p h _; exact ⟨h, fun _ h => h, fun _ h => nomatch h⟩
  | cons y l ih =>
    intro p h hl
    obtain ⟨k, b⟩ := y
    have hb : b = a := hl _ (List.mem_cons_self ..)
    subst hb
    obtain ⟨h1, h2, h3⟩ := h.init hm k
    obtain ⟨g1, g2, g3⟩ := ih h1 (fun x hx => hl x (List.mem_cons_of_mem _ hx))
    refine ⟨g1, fun j hj => g2 j (h3 j hj), fun j hj => ?_⟩
    rw [List.map_cons, List.mem_cons] at hj
    rcases hj with hj | hj
    · subst hj; exact g2 _ h2
    · exact g3 j hj

theorem own_empty (a : App) (m : Mode) : Own a m {} :=
  ⟨fun _ => .inl rfl, fun ⟨_, h⟩ => absurd rfl h.manager, fun ⟨_, h⟩ => absurd rfl h.manager, .inl rfl⟩

end SetupP

open SetupP

/-- C106: a package that has been initialised is not initialised again. -/
theorem C106_once (L : Lib) (p : Proc) (k : Pkg) (a : App) (h : (p.vars k).manager ≠ none) : p.initialize L k a = p := by
  obtain ⟨x, hx⟩ := Option.ne_none_iff_exists'.mp h
  exact initialize_some hx

/-- C106: in a process with one application, whose recording mode exists, every package that was initialised uses the recorder and the
mode of the application, however often and in whatever order the packages are initialised; flows are looked up among the resources of
the application, and changes are tracked exactly if there is a recorder and the mode asks for steps.

Partial: one application per process (`C106_negation_second`) and a mode that exists (`C106_negation_mode`). -/
theorem C106_own_partial (L : Lib) (a : App) (l : List (Pkg × App)) (hl : ∀ x ∈ l, x.2 = a) {m : Mode} (hm : asked L a.settings = some m)
    {k : Pkg} (hk : k ∈ l.map (·.1)) :
    SetUp (Proc.initAll L {} l) k a m ∧ (∃ x, (Proc.initAll L {} l).lookup = some (x, a.resources)) ∧
      (Proc.initAll L {} l).tracking = if a.recorder.isSome && m.recordSteps then some m else none := by
  obtain ⟨h1, _, h3⟩ := Own.initAll hm l (own_empty a m) hl
  exact ⟨h3 k hk, h1.lookup ⟨k, h3 k hk⟩, h1.tracking ⟨k, h3 k hk⟩⟩

/-- C106: in such a process the URI of a resource means the flow of that name among the resources of the application, for actions that
are created and for tasks that call it; a resource that does not exist or is no flow is an error. -/
theorem C106_resource {L : Lib} {p : Proc} {a : App} {x : Nat} (h : p.lookup = some (x, a.resources)) {uri : String}
    (hu : Launch.isResource uri = true) (provided : Except Err Def) :
    (∀ d, (p.res a.resources).get? (L.key uri) = some (.flow d) →
      p.newAction L uri provided = (p, .ok ⟨uri, some d⟩) ∧ p.calledDef L uri provided = (p, .ok d)) ∧
    ((∀ d, (p.res a.resources).get? (L.key uri) ≠ some (.flow d)) →
      (∃ e, p.newAction L uri provided = (p, .error e)) ∧ ∃ e, p.calledDef L uri provided = (p, .error e)) := by
  unfold Proc.newAction Proc.calledDef Proc.getDefinition
  rw [h]
  dsimp only
  rw [if_pos hu]
  cases hg : (p.res a.resources).get? (L.key uri) with
  | none => exact ⟨fun d hd => (by cases hd), fun _ => ⟨⟨_, rfl⟩, ⟨_, rfl⟩⟩⟩
  | some r =>
    cases r with
    | other => exact ⟨fun d hd => (by cases hd), fun _ => ⟨⟨_, rfl⟩, ⟨_, rfl⟩⟩⟩
    | flow d => exact ⟨fun d' hd => (by cases hd; exact ⟨rfl, rfl⟩), fun hn => absurd rfl (hn d)⟩

/-- C106: for every other URI the provider is asked unless the flow was loaded before. An action that is created keeps only the URI, so
that the flow is looked up again when it is executed, and an error of the provider is passed on, to actions and to tasks alike. -/
theorem C106_provided {L : Lib} {p : Proc} {x r : Nat} (h : p.lookup = some (x, r)) {uri : String}
    (hu : Launch.isResource uri = false) (provided : Except Err Def) :
    (∀ d, (p.loaded x).get? uri = some d →
      p.newAction L uri provided = (p, .ok ⟨uri, none⟩) ∧ p.calledDef L uri provided = (p, .ok d)) ∧
    ((p.loaded x).get? uri = none → ∀ e, provided = .error e →
      p.newAction L uri provided = (p, .error e) ∧ p.calledDef L uri provided = (p, .error e)) ∧
    ((p.loaded x).get? uri = none → ∀ d, provided = .ok d →
      (p.newAction L uri provided).2 = .ok ⟨uri, none⟩ ∧ (p.calledDef L uri provided).2 = .ok d ∧
        ((p.newAction L uri provided).1.loaded x).get? uri = some d ∧ ((p.calledDef L uri provided).1.loaded x).get? uri = some d) := by
  unfold Proc.newAction Proc.calledDef Proc.getDefinition
  rw [h]
  dsimp only
  rw [if_neg (by rw [hu]; decide)]
  unfold Proc.getFlow
  refine ⟨fun d hd => ?_, fun hn e he => ?_, fun hn d he => ?_⟩
  · rw [hd]; exact ⟨rfl, rfl⟩
  · rw [hn, he]; exact ⟨rfl, rfl⟩
  · rw [hn, he]
    refine ⟨rfl, rfl, ?_, ?_⟩ <;> simp [AMap.get?_set]

/-- C106: if only the flow package is used, a remote flow that an action has executed is the one that tasks calling it execute later,
whatever is found under its URI then, and vice versa.

Partial: without the on-demand package (`C106_negation_packages`). -/
theorem C106_remote_partial (L : Lib) (l : List (Pkg × App)) (hl : ∀ x ∈ l, x.1 = .flow) (q : Proc) (hq : q = Proc.initAll L {} l) {uri : String}
    (hu : Launch.isResource uri = false) (p₁ p₂ : Except Err Def) :
    (∀ q' d, q.startDef ⟨uri, none⟩ p₁ = (q', .ok d) → (q'.calledDef L uri p₂).2 = .ok d) ∧
    (∀ q' d, q.calledDef L uri p₁ = (q', .ok d) → (q'.startDef ⟨uri, none⟩ p₂).2 = .ok d) := by
  have key : ∀ (l : List (Pkg × App)) (p : Proc), (∀ x ∈ l, x.1 = .flow) → p.lookup.map (·.1) = (p.vars .flow).manager →
      (p.initAll L l).lookup.map (·.1) = ((p.initAll L l).vars .flow).manager := by
    intro l
    induction l with
    | nil => intro p _ h; exact h
    | cons y l ih =>
      intro p hl h
      obtain ⟨k, a⟩ := y
      have hk : k = .flow := hl _ (List.mem_cons_self ..)
      subst hk
      refine ih _ (fun x hx => hl x (List.mem_cons_of_mem _ hx)) ?_
      show (p.initialize L .flow a).lookup.map (·.1) = ((p.initialize L .flow a).vars .flow).manager
      cases hm : (p.vars .flow).manager with
      | some x => rw [initialize_some hm]; exact h
      | none =>
        unfold Proc.initialize
        simp only [hm]
        split
        · simp [Proc.setVars]
        · simp [Proc.setVars]
          rw [hm] at h
          simpa using h
  have hq := hq ▸ key l {} hl rfl
  have keep : ∀ (m : Nat) (q' : Proc) (d : Def), q.getFlow m uri p₁ = (q', .ok d) →
      q'.lookup = q.lookup ∧ q'.vars = q.vars ∧ q'.getFlow m uri p₂ = (q', .ok d) := by
    intro m q' d h
    unfold Proc.getFlow at h
    cases hg : (q.loaded m).get? uri with
    | some d' =>
      rw [hg] at h
      cases h
      refine ⟨rfl, rfl, ?_⟩
      unfold Proc.getFlow; rw [hg]
    | none =>
      rw [hg] at h
      cases p₁ with
      | error e => cases h
      | ok d' =>
        cases h
        refine ⟨rfl, rfl, ?_⟩
        unfold Proc.getFlow
        simp [AMap.get?_set_self]
  unfold Proc.startDef Proc.calledDef Proc.getDefinition
  dsimp only
  rw [hu]
  cases hlk : q.lookup with
  | none =>
    rw [hlk] at hq
    rw [← hq]
    exact ⟨fun q' d h => (by cases h), fun q' d h => (by cases h)⟩
  | some y =>
    obtain ⟨m, r⟩ := y
    rw [hlk] at hq
    rw [← hq]
    dsimp only [Option.map]
    constructor
    · intro q' d h
      cases hg : q.getFlow m uri p₁ with
      | mk q1 o =>
        rw [hg] at h
        cases o with
        | error e => cases h
        | ok d1 =>
          cases h
          obtain ⟨h1, h2, h3⟩ := keep m _ _ hg
          rw [h1, hlk]
          simp [h3]
    · intro q' d h
      cases hg : q.getFlow m uri p₁ with
      | mk q1 o =>
        rw [hg] at h
        cases o with
        | error e => cases h
        | ok d1 =>
          cases h
          obtain ⟨h1, h2, h3⟩ := keep m _ _ hg
          rw [h2, ← hq]
          simp [h3]

/-- C106: `SetResource` makes exactly the resources before the first one that cannot be loaded available, the last one if an
identifier occurs several times, and reports an error if there is one that cannot be loaded. All other resources, the resources of other
applications and the flows that were loaded from elsewhere stay as they are. -/
theorem C106_set {p : Proc} {x m : Nat} (h : p.lookup = some (x, m)) (cs : List (String × Except Err Res)) :
    (∀ id, ((p.setResource cs).1.res m).get? id = (lastFor (usable cs) id).or ((p.res m).get? id)) ∧
    ((∃ u, (p.setResource cs).2 = .ok u) ↔ usable cs = cs) ∧ (p.setResource cs).2 ≠ .panic ∧
    (∀ n, n ≠ m → (p.setResource cs).1.res n = p.res n) ∧ (p.setResource cs).1.lookup = p.lookup ∧
    (p.setResource cs).1.vars = p.vars ∧ (p.setResource cs).1.loaded = p.loaded := by
  induction cs generalizing p with
  | nil => exact ⟨fun id => rfl, ⟨fun _ => rfl, fun _ => ⟨(), rfl⟩⟩, (fun h => nomatch h), fun _ _ => rfl, rfl, rfl, rfl⟩
  | cons c cs ih =>
    obtain ⟨id, r⟩ := c
    cases r with
    | error e =>
      refine ⟨fun id => rfl, ⟨(fun ⟨_, h⟩ => nomatch h), fun h => ?_⟩, (fun h => nomatch h), fun _ _ => rfl, rfl, rfl, rfl⟩
      cases h
    | ok r =>
      have hc : p.setResource ((id, .ok r) :: cs) =
          Proc.setResource { p with res := fun y => if y = m then (p.res m).set id r else p.res y } cs := by
        rw [Proc.setResource]
        split
        · rename_i hn; rw [h] at hn; cases hn
        · rename_i hs; rw [h] at hs; cases hs; rw [h]
      rw [hc]
      obtain ⟨h1, h2, h3, h4, h5, h6, h7⟩ := ih (p := { p with res := fun y => if y = m then (p.res m).set id r else p.res y }) h
      have hu : usable ((id, .ok r) :: cs) = (id, .ok r) :: usable cs := by
        unfold usable; rw [List.takeWhile_cons]; rfl
      refine ⟨fun id' => ?_, ?_, h3, fun n hn => ?_, h5, h6, h7⟩
      · rw [h1, hu]
        simp only [if_true]
        rw [AMap.get?_set]
        unfold lastFor
        rw [List.reverse_cons, List.find?_append]
        cases hf : (usable cs).reverse.find? (fun c => decide (c.1 = id')) with
        | some y =>
          rw [Option.some_or]
          have hy := List.mem_of_find?_eq_some hf
          have hok : ∀ z ∈ usable cs, ∃ w, z.2 = .ok w := by
            intro z hz
            have := List.all_eq_true.1 List.all_takeWhile z hz
            revert this
            cases z.2 with
            | ok w => exact fun _ => ⟨w, rfl⟩
            | error e => exact fun h => nomatch h
          obtain ⟨w, hw⟩ := hok y (List.mem_reverse.1 hy)
          obtain ⟨y1, y2⟩ := y
          cases hw
          rfl
        | none =>
          rw [Option.none_or]
          by_cases hid : id = id'
          · simp [List.find?, hid]
          · simp [List.find?, hid]
      · rw [h2, hu]
        constructor
        · intro h; rw [h]
        · intro h; exact (List.cons.inj h).2
      · rw [h4 n hn]
        simp [hn]

namespace SetupP

/-- Texts are compared as they are; a URI is the identifier of its resource. -/
def plainLib : Lib := ⟨fun s => s, fun s => s = "full", fun s => s⟩

/-- A flow with one task. -/
def short (t : TaskId) : Def := { name := t, main := ⟨[tk t], []⟩ }

/-- Two applications: the first has the flow A, the second the flow B as `res://flow:f`. -/
def twoApps : Proc := { res := fun x => if x = 1 then [("res://flow:f", .flow (short "A"))] else [("res://flow:f", .flow (short "B"))] }

/-- The name of the flow, if there is one. -/
def nameOf : Out Def → Option String
  | .ok d => some d.name
  | _ => none

/-- The name of the flow of an action for a resource. -/
def actionName : Out Launch.Action → Option String
  | .ok a => a.res.map (·.name)
  | _ => none

-- the hypotheses of `C106_own_partial`, with a recorder and a mode; of `C106_resource`; of `C106_set`
example : asked plainLib { mode := some "full" } = some .full ∧ Pkg.ondemand ∈ [(Pkg.flow, (⟨{ mode := some "full" }, some 7, 1⟩ : App)),
    (.ondemand, ⟨{ mode := some "full" }, some 7, 1⟩), (.flow, ⟨{ mode := some "full" }, some 7, 1⟩)].map (·.1) ∧
    Launch.isResource "res://flow:f" = true ∧ Launch.isResource "file://f.json" = false := by decide
example : (Proc.initAll plainLib {} [(.flow, ⟨{ mode := some "full" }, some 7, 1⟩)]).tracking = some .full := by decide
example : nameOf ((twoApps.initialize plainLib .flow ⟨{}, none, 1⟩).calledDef plainLib "res://flow:f" (.error (.plain "none"))).2 = some "A" := by
  decide
-- the hypotheses of `C106_remote_partial`: the flow has been executed by an action
example : nameOf ((Proc.initAll plainLib {} [(.flow, ⟨{}, none, 1⟩)]).startDef ⟨"file://f.json", none⟩ (.ok (short "A"))).2 = some "A" := by decide
-- the second entry cannot be loaded: the first one is available
example : (usable [("res://flow:g", .ok (.flow (short "G"))), ("res://flow:h", .error (.plain "bad")), ("res://flow:i", .ok .other)]).length = 1 := by
  decide

end SetupP

/-- C106 fails for a second application in the process: its factory is initialised without an error, but its action executes the flow
of that name of the first application. -/
theorem C106_negation_second :
    ∃ (p : Proc) (a b : App) (uri : String) (provided : Except Err Def), asked plainLib a.settings = some .off ∧ asked plainLib b.settings = some .off ∧
      actionName (((p.initialize plainLib .flow a).initialize plainLib .flow b).newAction plainLib uri provided).2 = some "A" ∧
      actionName ((p.initialize plainLib .flow b).newAction plainLib uri provided).2 = some "B" :=
  ⟨twoApps, ⟨{}, none, 1⟩, ⟨{}, none, 2⟩, "res://flow:f", .error (.plain "none"), by decide, by decide, by decide, by decide⟩

/-- C106 fails if both packages are used: each has a flow manager of its own, and tasks that call flows ask the one that was
initialised last. A remote flow executed by an action before that is loaded once more when a task calls it, and may then be another
one. -/
theorem C106_negation_packages :
    ∃ (a : App) (uri : String) (d₁ d₂ : Def), d₁.name ≠ d₂.name ∧
      let p := (Proc.initAll plainLib {} [(.flow, a)]).startDef ⟨uri, none⟩ (.ok d₁)
      nameOf p.2 = some d₁.name ∧
      let q := p.1.initialize plainLib .ondemand a
      nameOf (q.calledDef plainLib uri (.ok d₂)).2 = some d₂.name ∧
      nameOf ((q.calledDef plainLib uri (.ok d₂)).1.startDef ⟨uri, none⟩ (.ok d₂)).2 = some d₁.name :=
  ⟨⟨{}, none, 1⟩, "file://f.json", short "A", short "B", by decide, by decide, by decide, by decide⟩

/-- C106 fails if the recording mode does not exist: `Initialize` reports no error, but every later look-up of a flow dereferences a
nil pointer, whatever the URI, and so does every replacement of a resource. -/
theorem C106_negation_mode (L : Lib) (l : List (Pkg × App)) (hl : ∀ x ∈ l, asked L x.2.settings = none) (uri : String)
    (provided : Except Err Def) (id : String) (r : Res) :
    ((Proc.initAll L {} l).newAction L uri provided).2 = .panic ∧ ((Proc.initAll L {} l).setResource [(id, .ok r)]).2 = .panic := by
  have key : ∀ (l : List (Pkg × App)) (p : Proc), (∀ x ∈ l, asked L x.2.settings = none) → p.lookup = none → (∀ k, (p.vars k).manager = none) →
      (p.initAll L l).lookup = none := by
    intro l
    induction l with
    | nil => intro p _ h _; exact h
    | cons y l ih =>
      intro p hl h hv
      obtain ⟨k, a⟩ := y
      have hn : asked L a.settings = none := hl _ (List.mem_cons_self ..)
      rw [initAction_asked] at hn
      have hi : p.initialize L k a = p.setVars k { p.vars k with mode := (initAction L.lower L.fold a.settings).mode } := by
        unfold Proc.initialize
        rw [hv k]
        dsimp only
        split
        · rename_i hf; rw [if_pos hf] at hn; cases hn
        · rfl
      show ((p.initialize L k a).initAll L l).lookup = none
      rw [hi]
      refine ih _ (fun x hx => hl x (List.mem_cons_of_mem _ hx)) h (fun j => ?_)
      unfold Proc.setVars
      dsimp only
      split
      · exact hv k
      · exact hv j
  have h := key l {} hl rfl (fun _ => rfl)
  constructor
  · unfold Proc.newAction Proc.getDefinition
    rw [h]
  · unfold Proc.setResource
    dsimp only
    rw [h]

-- such a mode
example : asked plainLib { mode := some "all" } = none := by decide

/-- C106 fails for flows that are replaced: after `SetResource` tasks that call the flow execute the new one, but the actions that
were created before go on executing the old one. -/
theorem C106_negation_replaced :
    ∃ (p : Proc) (uri : String) (d : Def) (a : Launch.Action) (provided : Except Err Def), (p.newAction plainLib uri provided).2 = .ok a ∧
      let q := (p.setResource [(uri, .ok (.flow d))]).1
      nameOf (q.calledDef plainLib uri provided).2 = some d.name ∧ nameOf (q.startDef a provided).2 ≠ some d.name :=
  ⟨twoApps.initialize plainLib .flow ⟨{}, none, 1⟩, "res://flow:f", short "C", ⟨"res://flow:f", some (short "A")⟩, .error (.plain "none"), rfl,
    by decide, by decide⟩

end Flow
