import Verif.Proofs.Quiet
import Verif.Spec.Plain
import Verif.Spec.Serial

/-
C11: what happens to a subflow that has finished.
-/

namespace Flow

open Spec

/-- One step keeps an idle subflow idle and does nothing in it. -/
theorem idle_step {env : Env} {e : Eng} (hl : 0 < e.insts.length) {i : Nat} (hi : i < e.insts.length) (h : Idle e i) :
    Idle (e.step env) i ∧ (∀ j, Below (e.step env) i j ↔ Below e i j) ∧
    ∀ j, Below e i j → flowStatus (e.step env) j = flowStatus e j ∧ calls (e.step env) j = calls e j := by
  have hlt : ∀ j, Below e i j → j < e.insts.length := by
    intro j hb
    cases hb with
    | self => exact hi
    | sub hJ _ _ => exact (List.getElem?_eq_some_iff.1 hJ).1
  have hcl : Eng.Closed (fun j => ¬ Below e i j) e :=
    ⟨fun j a o J hJ hT ha hb => hT (.sub hJ ha hb), fun j hj hb => by have := hlt j hb; omega⟩
  obtain ⟨k1, k2, k3, k4, _⟩ := Eng.Keep.step (env := env) (T := fun j => ¬ Below e i j) hl h.1 h.2 hcl
  have b1 : ∀ j, Below (e.step env) i j → Below e i j := by
    intro j hb
    induction hb with
    | self => exact .self
    | @sub j a o J hJ ha _ ih =>
      by_cases hj : Below e i j
      · exact hj
      · exact absurd ih (k1.1 j a o J hJ hj ha)
  have b2 : ∀ j, Below e i j → Below (e.step env) i j := by
    intro j hb
    induction hb with
    | self => exact .self
    | sub hJ ha _ ih =>
      obtain ⟨J', h1, h2⟩ := k4 _ _ hJ
      exact .sub h1 (h2.trans ha) ih
  refine ⟨⟨fun w hw hb => ?_, ?_⟩, fun j => ⟨b1 j, b2 j⟩, fun j hj => ?_⟩
  · rcases k2 w hw with h1 | h1
    · exact h.1 w h1 (b1 _ hb)
    · exact h1 (b1 _ hb)
  · rcases k3 with ⟨h1, h2⟩ | h1
    · rcases h.2 with h3 | h3
      · left; rw [h1]; exact h3
      · right; rw [h2]; exact fun hb => h3 (b1 _ hb)
    · exact Or.inr (fun hb => h1 (b1 _ hb))
  · have other : ∀ {q : Option Nat} (a : Nat), j ≠ a → Eng.Ops env a q e (e.step env) →
        flowStatus (e.step env) j = flowStatus e j ∧ calls (e.step env) j = calls e j := by
      intro q a hne ho
      obtain ⟨J, hJ⟩ : ∃ J, e.insts[j]? = some J := ⟨_, List.getElem?_eq_getElem (hlt j hj)⟩
      obtain ⟨J', h1, h2⟩ := ho.others j J hne hJ
      unfold Spec.flowStatus Spec.calls
      rw [hJ, h1]
      exact ⟨by simp [h2.status], h2.calls⟩
    cases hn : Spec.next env e with
    | some w =>
      have hw := List.mem_of_getElem? (Eng.next_some hn).2.2
      exact other w.inst (fun he => h.1 w hw (he ▸ hj)) (Eng.Ops.item hn)
    | none =>
      by_cases hst : e.stack = []
      · rw [Eng.step_idle hst hn hl]; exact ⟨rfl, rfl⟩
      · exact other (q := none) e.cur (fun he => (h.2.resolve_left hst) (he ▸ hj)) (Eng.Ops.inner hst)

/-- C11, part: once a subflow has finished and neither it nor a subflow it has started has pending work, its status and the
activities it has executed never change again, and it never gets work again; the same holds for the subflows it has started.
What is missing: a finished subflow may have pending work, see `C11_negation_executes` and `C11_negation_status`. -/
theorem C11_idle_partial {env : Env} {e : Eng} (hr : Reachable env e) {i : Nat} (hi : i < e.insts.length) (h : Idle e i) (n : Nat) :
    ∀ j, Below e i j → flowStatus (e.run env n) j = flowStatus e j ∧ calls (e.run env n) j = calls e j ∧
      ∀ w ∈ (e.run env n).queue, w.inst ≠ j := by
  have main : Idle (e.run env n) i ∧ (∀ j, Below (e.run env n) i j ↔ Below e i j) ∧
      ∀ j, Below e i j → flowStatus (e.run env n) j = flowStatus e j ∧ calls (e.run env n) j = calls e j := by
    induction n with
    | zero => exact ⟨h, fun _ => Iff.rfl, fun _ _ => ⟨rfl, rfl⟩⟩
    | succ n ih =>
      obtain ⟨h1, h2, h3⟩ := ih
      have hrn := Eng.reachable_run hr n
      have hpos := (Eng.engOK_reachable hrn).length_pos
      have hin : i < (e.run env n).insts.length := by
        have hB := (h2 i).2 .self
        have : ∃ s, flowStatus (e.run env n) i = some s := by
          rw [(h3 i .self).1]; unfold Spec.flowStatus; rw [List.getElem?_eq_getElem hi]; exact ⟨_, rfl⟩
        obtain ⟨s, hs⟩ := this
        unfold Spec.flowStatus at hs
        obtain ⟨I, hI, _⟩ := Option.map_eq_some_iff.1 hs
        exact (List.getElem?_eq_some_iff.1 hI).1
      obtain ⟨k1, k2, k3⟩ := idle_step (env := env) hpos hin h1
      refine ⟨k1, fun j => (k2 j).trans (h2 j), fun j hj => ?_⟩
      have h4 := k3 j ((h2 j).2 hj)
      exact ⟨h4.1.trans (h3 j hj).1, h4.2.trans (h3 j hj).2⟩
  obtain ⟨h1, h2, h3⟩ := main
  intro j hj
  refine ⟨(h3 j hj).1, (h3 j hj).2, fun w hw he => ?_⟩
  exact h1.1 w hw (he ▸ (h2 j).2 hj)

/-- A subflow "v" of the two parallel tasks B and C, started by task A. -/
def parEnv (b : ActOut) : Env :=
  { tableEnv (fun t => if t = "B" then b else {}) (fun _ => .ok true) with
    defs := fun u => if u = "v" then .ok (some { name := "g", main := ⟨[tk "B", tk "C"], []⟩ }) else .ok none }

def parRun (b : ActOut) (n : Nat) : Eng :=
  Eng.run (parEnv b) (Eng.init (parEnv b) "1" "u" { name := "f", main := ⟨[{ tk "A" with act := .subflow "v" }], []⟩ } []) n

/-- The tasks whose activities an instance has called, oldest first. -/
def called (e : Eng) (i : Nat) : List TaskId :=
  (calls e i).reverse.filterMap (fun ev => match ev with | .evalAct _ t => some t.id | .postAct _ t => some t.id | _ => none)

/-- C11 fails: B returns explicitly and completes the subflow; afterwards C is executed, the subflow is completed again, and
the task A is scheduled a second time. -/
theorem C11_negation_executes : ∃ b, Reachable (parEnv b) (parRun b 2) ∧ Reachable (parEnv b) (parRun b 4) ∧
    flowStatus (parRun b 2) 1 = some .completed ∧ called (parRun b 2) 1 = ["B"] ∧
    pending (parRun b 2) = [(3, 1, "C"), (4, 0, "A")] ∧
    called (parRun b 4) 1 = ["B", "C"] ∧ pending (parRun b 4) = [(4, 0, "A"), (5, 0, "A")] :=
  ⟨{ ret := some (some [], none) }, ⟨_, _, _, _, _, rfl⟩, ⟨_, _, _, _, _, rfl⟩, by decide, by decide, by decide, by decide, by decide⟩

/-- C11 fails: B fails and with it the subflow; C is executed, and the subflow becomes Completed. -/
theorem C11_negation_status : ∃ b, Reachable (parEnv b) (parRun b 2) ∧ Reachable (parEnv b) (parRun b 4) ∧
    flowStatus (parRun b 2) 1 = some .failed ∧ pending (parRun b 2) = [(3, 1, "C"), (4, 0, "A")] ∧
    flowStatus (parRun b 4) 1 = some .completed ∧ pending (parRun b 4) = [(4, 0, "A"), (5, 0, "A")] :=
  ⟨{ res := .err (.plain "boom") }, ⟨_, _, _, _, _, rfl⟩, ⟨_, _, _, _, _, rfl⟩, by decide, by decide, by decide, by decide⟩

/-- The hypotheses of `C11_idle_partial` hold for the completed subflow of this run. -/
example : Reachable (parEnv {}) (parRun {} 6) ∧ flowStatus (parRun {} 6) 1 = some .completed ∧ Idle (parRun {} 6) 1 := by
  refine ⟨⟨_, _, _, _, _, rfl⟩, by decide, ?_, Or.inl ?_⟩
  · have hq : ∀ w ∈ (parRun {} 6).queue, w.inst = 0 := by decide
    intro w hw hb
    rw [hq w hw] at hb
    cases hb with
    | sub hJ hh _ =>
      have : (parRun {} 6).insts[0]?.map (·.host) = some none := by decide
      rw [hJ] at this
      simp [hh] at this
  · decide

end Flow
