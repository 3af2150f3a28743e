import Verif.Proofs.ConcFail
import Verif.Props.ConcOrder
import Verif.Props.Links

/-
Errors in concurrent mode (C74).
-/

namespace Flow

open Spec Conc

/-- The task fails and has no error link, or an expression of its links fails. -/
def Unhandled (d : Def) (t : TaskRef) : Res → Prop
  | .error => ¬ ∃ l ∈ d.toLinks t, l.type = .error
  | .done ev _ => exprFails (d.toLinks t) ev
  | _ => False

theorem unhandled_owed {prio : Bool} {s s' : St} {g o : Nat} {rest : List Fr} {ob : Obj} {r : Res} (hg : s.gs g = .run o :: rest)
    (ho : s.inst.objs[o]? = some ob) (hd : ob.status ≠ .done ∧ ob.status ≠ .skipped) (hu : Unhandled s.inst.defn ob.task r)
    (hs : step prio s (.exec g r) = some s') : .fail ∈ s'.gs g := by
  have hs : Conc.exec prio s g r = some s' := hs
  unfold Conc.exec at hs
  rw [hg] at hs
  simp only [ho] at hs
  rw [if_neg (by intro h; rcases h with h | h; exact hd.1 h; exact hd.2 h)] at hs
  cases hs
  cases r with
  | done ev ret =>
    obtain ⟨m, rows, h⟩ := (C03_fails_iff prio ev (s.inst.defn.toLinks ob.task)).2 hu
    show _ ∈ (if g = g then doneFrames prio ev s.inst s.gen ob.task rest else _)
    rw [if_pos rfl]
    unfold doneFrames
    rw [h]
    simp
  | error =>
    have h := (C04_error_links (s.inst.defn.toLinks ob.task)).2 hu
    show _ ∈ (if g = g then errorFrames s.inst s.gen ob.task rest else _)
    rw [if_pos rfl]
    unfold errorFrames
    rw [h]
    simp
  | wait => exact hu.elim
  | again => exact hu.elim

theorem Later.reach {prio : Bool} {d : Def} {uri : String} {s s' : St} (h : Reach prio d uri s) (hl : Later prio s s') : Reach prio d uri s' := by
  induction hl with
  | refl => exact h
  | step _ hs ih => exact .step ih hs

theorem Later.owed {prio : Bool} {d : Def} {uri : String} {s s' : St} {b : Bool} (h : Reach prio d uri s) (hb : b = true → s.inst.handling = true)
    (ho : Owed b s) (hl : Later prio s s') : Owed b s' ∧ (b = true → s'.inst.handling = true) := by
  induction hl with
  | refl => exact ⟨ho, hb⟩
  | step hl hs ih =>
    have ht := TrOK.reach (hl.reach h)
    exact ⟨ih.1.step ht hs ih.2, fun e => (step_ext ht hs).handling (ih.2 e)⟩

theorem handler_handling {prio : Bool} {d : Def} {uri : String} {s : St} (h : Reach prio d uri s) {o : Nat} {ob : Obj} (ho : s.inst.objs[o]? = some ob)
    (he : ob.task.eh = true) : s.inst.handling = true := by
  cases hh : s.inst.handling with
  | true => rfl
  | false =>
    have : EhOK s := by
      clear ho
      induction h with
      | init => exact EhOK.init d uri
      | @step s0 s1 l hr hs ih =>
        have ht := TrOK.reach hr
        obtain ⟨g, m⟩ := step_move ht hs (.inl hh)
        refine (ih ?_).step m
        cases h0 : s0.inst.handling with
        | false => rfl
        | true => rw [(step_ext ht hs).handling h0] at hh; cases hh
    rw [this.objs o ob ho] at he; cases he

/-- C74: a task is executed and fails without error link, or an expression of its links fails. When all goroutines have
finished, the flow has failed if it has no error handler or the task is one of the error handler; otherwise the start tasks of
the error handler have been entered. -/
theorem C74_not_lost {prio : Bool} {d : Def} {uri : String} {s s1 s2 : St} {g o : Nat} {rest : List Fr} {ob : Obj} {r : Res}
    (wf : ∀ l ∈ d.main.links, ∃ t ∈ d.main.tasks, t.id = l.dst) (h : Reach prio d uri s) (hg : s.gs g = .run o :: rest)
    (ho : s.inst.objs[o]? = some ob) (hd : ob.status ≠ .done ∧ ob.status ≠ .skipped) (hu : Unhandled d ob.task r)
    (hs : step prio s (.exec g r) = some s1) (hl : Later prio s1 s2) (hend : ∀ g, s2.gs g = []) :
    (d.eh = none ∨ ob.task.eh = true → .flowStatus .failed ∈ s2.inst.trace) ∧
    ∀ H, d.eh = some H → ∀ t ∈ H.tasks, IsStart H t.id → (∀ u ∈ d.main.tasks, u.id ≠ t.id) →
      ∃ o', .taskStatus o' ⟨true, t.id⟩ .entered ∈ s2.inst.trace := by
  have ht := TrOK.reach h
  have h1 : Reach prio d uri s1 := .step h hs
  have h2 := hl.reach h1
  have hw : Owed ob.task.eh s1 := .inl ⟨g, unhandled_owed hg ho hd (by rw [ht.defn]; exact hu) hs⟩
  obtain ⟨h3 | h3, _⟩ := hl.owed h1 (fun e => (step_ext ht hs).handling (handler_handling h ho e)) hw
  · obtain ⟨k, hk⟩ := h3
    rw [hend k] at hk; cases hk
  · rw [(TrOK.reach h2).defn] at h3
    refine ⟨fun hc => h3.2 hc.symm, fun H hH t htm hst hne => ?_⟩
    have hal : Alone d ⟨⟨true, t.id⟩, 0⟩ := by
      intro u hu hid
      obtain ⟨e, i⟩ := u
      have hid : i = t.id := hid
      subst hid
      cases e with
      | true => rfl
      | false =>
        obtain ⟨x, hx, e⟩ := hu rfl
        exact absurd e (hne x hx)
    have hm : (⟨⟨true, t.id⟩, 0⟩ : TaskEntry) ∈ Inst.startEntries d true := by
      unfold Inst.startEntries Def.fromLinks Def.graph
      simp only [hH, Option.getD_some]
      refine List.mem_map.2 ⟨t, List.mem_filter.2 ⟨htm, ?_⟩, rfl⟩
      have : H.fromLinks t.id = [] := by
        unfold Graph.fromLinks
        rw [List.filter_eq_nil_iff]
        intro l hl
        simpa using hst l hl
      simp [this]
    rcases serve_reach wf h2 (by rw [hH]; rfl) h3.1 hm hal with h4 | ⟨k, f, hf, _⟩
    · exact h4
    · rw [hend k] at hf; cases hf

theorem Later.runs {prio : Bool} {s s' : St} (ls : List Label) (h : runs prio s ls = some s') : Later prio s s' := by
  suffices ∀ ls a, Later prio s a → Conc.runs prio a ls = some s' → Later prio s s' from this ls s .refl h
  intro ls
  induction ls with
  | nil => intro a ha h; cases h; exact ha
  | cons l ls ih =>
    intro a ha h
    cases hs : Conc.step prio a l with
    | none => unfold Conc.runs at h; rw [hs] at h; cases h
    | some b =>
      unfold Conc.runs at h
      rw [hs] at h
      exact ih b (.step ha hs) h

/-- The labels of a run in which C fails while A is executed; the error handler runs H. -/
def afterFailure : List Label := nexts 2 6 ++ [.exec 1 allTrue] ++ nexts 1 5

/-- The hypotheses hold: all goroutines have finished, H is ready. -/
example : ∃ s s1 s2 o rest ob, Reach true pairHandler "u" s ∧ s.gs 2 = .run o :: rest ∧ s.inst.objs[o]? = some ob ∧
    (ob.status ≠ .done ∧ ob.status ≠ .skipped) ∧ Unhandled pairHandler ob.task .error ∧ step true s (.exec 2 .error) = some s1 ∧
    Later true s1 s2 ∧ (∀ g, s2.gs g = []) ∧ s2.queue = [2] := by
  refine ⟨_, _, _, 1, _, _, reach_runs (nexts 0 8 ++ [.pop 1, .pop 2]) .init rfl, rfl, rfl, ⟨by decide, by decide⟩, ?_, rfl,
    Later.runs afterFailure rfl, fun g => ?_, by decide +kernel⟩
  · rintro ⟨l, hl, _⟩
    cases hl
  · match g with
    | 0 => rfl
    | 1 => rfl
    | 2 => rfl
    | g + 3 => rfl

/-- And if C fails in a flow without error handler: it has failed when A is finished. -/
example : ∃ s s1 s2 o rest ob, Reach true pairDef "u" s ∧ s.gs 2 = .run o :: rest ∧ s.inst.objs[o]? = some ob ∧
    (ob.status ≠ .done ∧ ob.status ≠ .skipped) ∧ Unhandled pairDef ob.task .error ∧ step true s (.exec 2 .error) = some s1 ∧
    Later true s1 s2 ∧ (∀ g, s2.gs g = []) ∧ flowChanges s2.inst.trace = [.active, .completed, .failed] := by
  refine ⟨_, _, _, 1, _, _, reach_runs (nexts 0 8 ++ [.pop 1, .pop 2]) .init rfl, rfl, rfl, ⟨by decide, by decide⟩, ?_, rfl,
    Later.runs ([.exec 1 allTrue] ++ nexts 1 3 ++ nexts 2 1) rfl, fun g => ?_, by decide +kernel⟩
  · rintro ⟨l, hl, _⟩
    cases hl
  · match g with
    | 0 => rfl
    | 1 => rfl
    | 2 => rfl
    | g + 3 => rfl

end Flow
