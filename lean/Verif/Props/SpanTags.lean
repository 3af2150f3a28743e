import Verif.Model.SpanTags
import Verif.Props.Spans

/-
C113: what spans are tagged with agrees with the flows and tasks that are executed and with the nesting of the spans.
-/

namespace Flow
open Spec

variable {env : Env}

namespace Eng

theorem globalError_id (e : Eng) (i : Nat) (err : Err) : (e.globalError i err).id = e.id := by
  unfold globalError
  split
  · rfl
  · split
    · rfl
    · dsimp only
      split
      · rfl
      · split
        · rfl
        · unfold failHost
          split
          · rfl
          · split <;> rfl

theorem finishTask_id (e : Eng) (i : Nat) (t : TaskRef) (b : Bool) (es : List TaskEntry) (rest : List Frame) :
    (e.finishTask i t b es rest).id = e.id := by
  unfold finishTask
  split
  · rfl
  · split
    · unfold complete
      split
      · rfl
      · dsimp only
        split
        · rfl
        · split <;> rfl
    · rfl

theorem handleResult_id (e : Eng) (i o : Nat) (t : TaskRef) (name : String) (r : EvalOut) : (handleResult env e i o t name r).id = e.id := by
  have hdone : (taskDone env e i o t).id = e.id := by
    unfold taskDone
    split
    · rfl
    · split
      · exact globalError_id ..
      · exact finishTask_id ..
  unfold handleResult
  split
  · unfold taskError
    split
    · rfl
    · split
      · rfl
      · dsimp only
        split
        · split
          · rfl
          · unfold failHost
            split
            · rfl
            · split <;> rfl
        · exact globalError_id ..
  · exact hdone
  · exact hdone
  · rfl
  · rfl
  · rfl
  · split
    · rfl
    · split
      · rfl
      · exact globalError_id ..

/-- The identifier of a run does not change. -/
theorem step_id (e : Eng) : (e.step env).id = e.id := by
  by_cases hs : e.stack = []
  · cases hn : next env e with
    | none =>
      unfold step
      rw [hs]
      dsimp only
      unfold doStep
      cases hI : e.insts[0]? with
      | none => rfl
      | some I =>
        dsimp only
        split
        · rename_i ha
          have : flowStatus e 0 = some .active := by unfold Spec.flowStatus; rw [hI]; simp [ha]
          unfold Spec.next at hn
          rw [if_pos ⟨hs, this⟩] at hn
          rw [hn]
        · rfl
    | some w =>
      rw [step_next hn]
      cases hout : outcome env (afterPop env e w) w.inst w.obj with
      | none => rw [exec_none hout]; rfl
      | some x =>
        obtain ⟨e', r⟩ := x
        cases ho : (afterPop env e w).obj? w.inst w.obj with
        | none => unfold Spec.outcome at hout; rw [ho] at hout; cases hout
        | some ob =>
          obtain ⟨td, _, hx⟩ := exec_outcome ho hout
          rw [hx, handleResult_id]
          exact (outcome_ctl hout).2.2.2.1
  · unfold step
    split
    · rename_i h; exact absurd h hs
    · rfl
    · unfold enterEntry
      split
      · rfl
      · dsimp only
        split
        · rfl
        · split <;> rfl
        · unfold taskSkipped
          split
          · rfl
          · split
            · rfl
            · exact finishTask_id ..
    · rfl

end Eng

/-! ### C113 -/

/-- C113, what a span is tagged with does not depend on the moment: a later state gives the same tags. -/
theorem C113_stable {e : Eng} (hr : Reachable env e) {w : SpanOwner} {x : SpanTags} (h : e.tagsOf w = some x) (n : Nat) :
    (Eng.run env e n).tagsOf w = some x := by
  have one : ∀ {e : Eng} {x : SpanTags}, Eng.EngOK e → e.tagsOf w = some x → Eng.EngOK (e.step env) ∧ (e.step env).tagsOf w = some x := by
    intro e x hok h
    obtain ⟨hok', hx⟩ := Eng.Good.step (env := env) e hok
    refine ⟨hok', ?_⟩
    have hid := Eng.step_id (env := env) e
    have hinst : ∀ (i : Nat) (I : Inst), e.insts[i]? = some I → ∃ I', (e.step env).insts[i]? = some I' ∧ Ext I I' := hx
    have hiid : ∀ I I', Ext I I' → (e.step env).instID I' = e.instID I := by
      intro I I' hI
      unfold Eng.instID
      rw [hI.subflowId, hid]
    have htop : (e.step env).topName = e.topName := by
      have hl : 0 < e.insts.length := by have := hok.ctr; omega
      obtain ⟨I', h1, h2⟩ := hinst 0 _ (List.getElem?_eq_getElem hl)
      unfold Eng.topName
      rw [h1, List.getElem?_eq_getElem hl]
      exact congrArg Def.name h2.defn
    cases w with
    | flow j =>
      unfold Eng.tagsOf at h ⊢
      dsimp only at h ⊢
      cases hI : e.insts[j]? with
      | none => rw [hI] at h; cases h
      | some I =>
        obtain ⟨I', h1, h2⟩ := hinst j I hI
        rw [hI] at h
        rw [h1, ← h]
        show some ((e.step env).flowTags I') = some (e.flowTags I)
        unfold Eng.flowTags
        rw [hiid I I' h2, htop, hid, h2.defn]
    | task i o =>
      unfold Eng.tagsOf at h ⊢
      dsimp only at h ⊢
      cases hI : e.insts[i]? with
      | none => rw [hI] at h; cases h
      | some I =>
        obtain ⟨I', h1, h2⟩ := hinst i I hI
        rw [hI] at h
        cases ho : I.objs[o]? with
        | none =>
          simp [ho] at h
        | some ob =>
          obtain ⟨ob', h3, h4⟩ := h2.objs o ob ho
          have hx : e.taskTags i I ob = x := by simpa [ho] using h
          rw [h1, ← hx]
          show (I'.objs[o]?).map ((e.step env).taskTags i I') = some (e.taskTags i I ob)
          rw [h3]
          have hname : (e.step env).taskName i ob.task = e.taskName i ob.task := by
            unfold Eng.taskName Eng.taskDef?
            rw [h1, hI]
            dsimp only
            rw [h2.defn]
          show some ((e.step env).taskTags i I' ob') = some (e.taskTags i I ob)
          unfold Eng.taskTags
          rw [hiid I I' h2, h2.defn, h4, hname]
  have all : Eng.EngOK (Eng.run env e n) ∧ (Eng.run env e n).tagsOf w = some x := by
    induction n with
    | zero => exact ⟨Eng.engOK_reachable hr, h⟩
    | succ n ih => exact one ih.1 ih.2
  exact all.2

variable {s : SpanRun}

/-- C113, a task: the operation and the tag `task_name` of every span of a task are the name of the task in the definition, and
its other tags those of the flow instance, whose identifier no other flow instance has. -/
theorem C113_task (h : Traced env s) {k i o : Nat} (hk : OwnedBy s.st.log k (.task i o)) :
    ∃ I ob x, s.eng.insts[i]? = some I ∧ I.objs[o]? = some ob ∧ s.eng.tagsOf (.task i o) = some x ∧
      (∀ td, I.defn.task? ob.task = some td → x.operation = td.name ∧ x.taskName = some td.name) ∧
      x.flowName = I.defn.name ∧ x.flowId = s.eng.instID I ∧ x.parent = none ∧
      ∀ w y, s.eng.tagsOf w = some y → y.flowId = x.flowId → w = .flow i ∨ ∃ p, w = .task i p := by
  obtain ⟨hinv, _, hr⟩ := h.inv
  obtain ⟨ob, hob⟩ := hinv.own i o k hk
  cases hI : s.eng.insts[i]? with
  | none => unfold Eng.obj? at hob; rw [hI] at hob; cases hob
  | some I =>
    have ho : I.objs[o]? = some ob := by rw [Eng.obj?_eq hI] at hob; exact hob
    refine ⟨I, ob, s.eng.taskTags i I ob, rfl, ho, ?_, fun td htd => ?_, rfl, rfl, rfl, fun w y hy he => ?_⟩
    · unfold Eng.tagsOf
      dsimp only
      rw [hI]
      show (I.objs[o]?).map _ = _
      rw [ho]; rfl
    · have : s.eng.taskName i ob.task = td.name := by
        unfold Eng.taskName Eng.taskDef?
        rw [hI]
        dsimp only
        rw [htd]
      exact ⟨this, congrArg some this⟩
    · cases w with
      | flow j =>
        unfold Eng.tagsOf at hy
        dsimp only at hy
        cases hJ : s.eng.insts[j]? with
        | none => rw [hJ] at hy; cases hy
        | some J =>
          rw [hJ] at hy
          cases hy
          have := C26_unique_ids hr hJ hI he
          subst this
          exact Or.inl rfl
      | task j p =>
        unfold Eng.tagsOf at hy
        dsimp only at hy
        cases hJ : s.eng.insts[j]? with
        | none => rw [hJ] at hy; cases hy
        | some J =>
          rw [hJ] at hy
          cases hp : J.objs[p]? with
          | none =>
            simp [hp] at hy
          | some ob' =>
            have hx : s.eng.taskTags j J ob' = y := by simpa [hp] using hy
            subst hx
            have := C26_unique_ids hr hJ hI he
            subst this
            exact Or.inr ⟨p, rfl⟩

/-- C113, nesting of tasks: the span of a task and its parent span, that of the flow, are tagged with the same flow. -/
theorem C113_nested (h : Traced env s) {k i o : Nat} {p : Option Nat} (hk : SpanEv.started k (.task i o) p ∈ s.st.log) :
    ∃ q x y, p = some q ∧ OwnedBy s.st.log q (.flow i) ∧ s.eng.tagsOf (.task i o) = some x ∧ s.eng.tagsOf (.flow i) = some y ∧
      x.flowId = y.flowId ∧ x.flowName = y.flowName ∧ y.operation = y.flowName := by
  obtain ⟨q, hq, ho⟩ := (C92_parent h).1 k i o p hk
  obtain ⟨I, ob, x, hI, _, hx, _, h1, h2, _⟩ := C113_task h ⟨p, hk⟩
  refine ⟨q, x, s.eng.flowTags I, hq, ho, hx, ?_, h2, h1, rfl⟩
  unfold Eng.tagsOf
  dsimp only
  rw [hI]; rfl

/-- C113, called flows: the span of the top-level flow names no parent flow. The span of a called flow names the top-level flow;
its parent span is one of the calling task. So if a task of the top-level flow calls it, the named flow is that of the parent span.

Partial: for flows that are called by called flows see `C113_negation`. -/
theorem C113_called_partial (h : Traced env s) {k j : Nat} {p : Option Nat} (hk : SpanEv.started k (.flow j) p ∈ s.st.log) :
    ∃ J x, s.eng.insts[j]? = some J ∧ s.eng.tagsOf (.flow j) = some x ∧ x.operation = J.defn.name ∧ x.flowName = J.defn.name ∧
      x.flowId = s.eng.instID J ∧ (j = 0 → x.parent = none) ∧
      (j ≠ 0 → ∃ q i o y, J.host = some (i, o) ∧ p = some q ∧ OwnedBy s.st.log q (.task i o) ∧ s.eng.tagsOf (.task i o) = some y ∧
        (∃ z, s.eng.tagsOf (.flow 0) = some z ∧ x.parent = some (z.flowId, z.flowName)) ∧
        (i = 0 → x.parent = some (y.flowId, y.flowName))) := by
  obtain ⟨hinv, ht, hr⟩ := h.inv
  have ok := Eng.engOK_reachable hr
  have hlen : j < s.eng.insts.length := (ht.tree.has j).2 ⟨k, ht.tree.only j k ⟨p, hk⟩⟩
  have hJ := List.getElem?_eq_getElem hlen
  generalize hJe : s.eng.insts[j] = J at hJ
  have hsid := ok.sid j J hJ
  refine ⟨J, s.eng.flowTags J, hJ, ?_, rfl, rfl, rfl, fun hj => ?_, fun hj => ?_⟩
  · unfold Eng.tagsOf
    dsimp only
    rw [hJ]; rfl
  · subst hj
    unfold Eng.flowTags Eng.instID
    simp [hsid]
  · obtain ⟨pre, post, heq⟩ := List.append_of_mem hk
    obtain ⟨q, i, o, J', hJ', hh, hp, hnew, _⟩ := (C92_parent h).2 pre post k j p heq hj
    rw [hJ] at hJ'
    cases hJ'
    have hown : OwnedBy s.st.log q (.task i o) := by
      obtain ⟨r, hr'⟩ := hnew.1
      exact ⟨r, by rw [heq]; exact List.mem_append_right _ (List.mem_cons_of_mem _ hr')⟩
    obtain ⟨I, ob, y, hI, _, hy, _, h1, h2, _⟩ := C113_task h hown
    have hl0 : 0 < s.eng.insts.length := by have := ok.ctr; omega
    have hT := List.getElem?_eq_getElem hl0
    generalize s.eng.insts[0] = T at hT
    have hs0 := ok.sid 0 T hT
    have h0 : s.eng.instID T = s.eng.id := by unfold Eng.instID; simp [hs0]
    have hne : s.eng.id ≠ s.eng.instID J := fun hc => hj (C26_unique_ids hr hJ hT (hc.symm.trans h0.symm))
    have htop : (s.eng.flowTags J).parent = some (s.eng.instID T, T.defn.name) := by
      unfold Eng.flowTags
      dsimp only
      rw [if_pos hne, h0]
      unfold Eng.topName
      rw [hT]
    refine ⟨q, i, o, y, hh, hp, hown, hy, ⟨s.eng.flowTags T, ?_, htop⟩, fun hi => ?_⟩
    · unfold Eng.tagsOf
      dsimp only
      rw [hT]; rfl
    · subst hi
      rw [hT] at hI
      cases hI
      rw [h1, h2, htop]

/-! ### Examples -/

/-- Flow f calls flow g, which calls flow h. -/
def nestedSpans : SpanRun := traced nestedSubs nestedFlow 3

-- the spans, oldest first: f, its task A, g, its task B, h, its task C
example : (nestedSpans.st.log.reverse.take 6).map shown =
    [(0, some (.flow 0), none), (1, some (.task 0 0), some 0), (2, some (.flow 1), some 1), (3, some (.task 1 0), some 2),
     (4, some (.flow 2), some 3), (5, some (.task 2 0), some 4)] := by decide +kernel

-- C113_task, C113_nested and C113_called_partial for A, B and the flow g
example : nestedSpans.eng.tagsOf (.task 1 0) = some { operation := "B", flowId := "1-1", flowName := "g", taskName := some "B" } ∧
    nestedSpans.eng.tagsOf (.flow 1) = some { operation := "g", flowId := "1-1", flowName := "g", parent := some ("1", "f") } ∧
    nestedSpans.eng.tagsOf (.task 0 0) = some { operation := "A", flowId := "1", flowName := "f", taskName := some "A" } := by decide +kernel

/-- C113 fails for flows that are called by called flows: h is called by task B of g, the parent of its span is the span of B, but it
is tagged with f as its parent flow. -/
theorem C113_negation :
    nestedSpans.st.log.reverse[4]?.map shown = some (4, some (.flow 2), some 3) ∧
    nestedSpans.st.log.reverse[3]?.map shown = some (3, some (.task 1 0), some 2) ∧
    (nestedSpans.eng.tagsOf (.flow 2)).map (·.parent) = some (some ("1", "f")) ∧
    (nestedSpans.eng.tagsOf (.task 1 0)).map (fun y => (y.flowId, y.flowName)) = some ("1-1", "g") := by decide +kernel

end Flow
