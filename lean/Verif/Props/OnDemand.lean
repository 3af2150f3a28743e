import Verif.Model.OnDemand
import Verif.Props.Run
import Verif.Props.Definition
import Verif.Proofs.Recording

/-
C54: flows that are delivered with the event.

`Od.begin` is the call of the action; `Od.after` gives the states of the run that it starts.
-/

namespace Flow
open Spec

variable {env : Env} {senv : Ser.SerEnv} {menv : MapEnv} {limit : Int}

/-- The activity of the described task replies or returns by itself. -/
def RepliesItself (senv : Ser.SerEnv) (t : Ser.TaskRep) : Prop :=
  ∃ ref a, t.activity = some ref ∧ senv.activity t ref = .ok a ∧ a.replies = true

/-- The description says that the flow replies explicitly, or one of its tasks does. -/
def SaysReply (senv : Ser.SerEnv) (d : Ser.DefRep) : Prop :=
  d.explicitReply = true ∨ (∃ t ∈ d.tasks, RepliesItself senv t) ∨ ∃ h, d.handler = some h ∧ ∃ t ∈ h.tasks, RepliesItself senv t

theorem repReplies_iff (t : Ser.TaskRep) : Ser.repReplies senv t = true ↔ RepliesItself senv t := by
  unfold Ser.repReplies RepliesItself
  cases ht : t.activity with
  | none => exact ⟨(fun h => nomatch h), fun ⟨_, _, h, _⟩ => nomatch h⟩
  | some ref =>
    dsimp only
    cases ha : senv.activity t ref with
    | ok a =>
      refine ⟨fun h => ⟨ref, a, rfl, ha, h⟩, fun ⟨_, a', h, h', h''⟩ => ?_⟩
      cases h
      rw [ha] at h'; cases h'; exact h''
    | error m =>
      refine ⟨(fun h => nomatch h), fun ⟨_, a', h, h', h''⟩ => ?_⟩
      cases h
      rw [ha] at h'; cases h'

theorem explicitReply_iff (d : Ser.DefRep) : Ser.explicitReply senv d = true ↔ SaysReply senv d := by
  unfold Ser.explicitReply SaysReply
  simp only [Bool.or_eq_true, List.any_eq_true, repReplies_iff]
  rw [or_assoc]
  refine or_congr Iff.rfl (or_congr Iff.rfl ?_)
  cases hh : d.handler with
  | none => exact ⟨(fun h => nomatch h), fun ⟨_, h, _⟩ => nomatch h⟩
  | some h =>
    dsimp only
    rw [List.any_eq_true]
    simp only [repReplies_iff]
    exact ⟨fun hx => ⟨h, rfl, hx⟩, fun ⟨h', e, hx⟩ => by cases e; exact hx⟩

theorem newDefinition_header {d : Ser.DefRep} {b : Ser.BDef} (h : Ser.newDefinition senv d = .ok b) :
    b.name = d.name ∧ b.modelId = d.modelId ∧ b.explicitReply = Ser.explicitReply senv d := by
  unfold Ser.newDefinition at h
  cases hb : Ser.build senv d with
  | error f => rw [hb] at h; cases f <;> cases h
  | ok b' =>
    rw [hb] at h
    cases h
    unfold Ser.build at hb
    simp only [bind, Except.bind] at hb
    split at hb
    · cases hb
    · split at hb
      · cases hb
      · cases hb; exact ⟨rfl, rfl, rfl⟩

/-- **C30** The built definition has the name and the model of the description, and it counts as replying explicitly
exactly if the description says so or the activity of one of its tasks, also of the error handler, replies. -/
theorem C30_header {d : Ser.DefRep} {b : Ser.BDef} (h : Ser.newDefinition senv d = .ok b) :
    b.name = d.name ∧ b.modelId = d.modelId ∧ (b.explicitReply = true ↔ SaysReply senv d) := by
  obtain ⟨h1, h2, h3⟩ := newDefinition_header h
  exact ⟨h1, h2, by rw [h3]; exact explicitReply_iff d⟩

/-- C54: a package that is missing or unreadable, a flow that cannot be built and mappings that do not compile are refused,
and in all other cases the run starts. -/
theorem C54_refused (id : String) (pkg : Option (Except String FlowPackage)) (ins : AMap String Val) :
    (∃ m, Od.begin senv menv env id pkg ins = .error m) ↔
      pkg = none ∨ (∃ m, pkg = some (.error m)) ∨
        ∃ p, pkg = some (.ok p) ∧ ((∃ m, Ser.newDefinition senv p.flow = .error m) ∨ menv.newMapper p.mappings ≠ none) := by
  unfold Od.begin
  cases pkg with
  | none => exact ⟨fun _ => .inl rfl, fun _ => ⟨_, rfl⟩⟩
  | some x =>
    cases x with
    | error m => exact ⟨fun _ => .inr (.inl ⟨m, rfl⟩), fun _ => ⟨m, rfl⟩⟩
    | ok p =>
      dsimp only
      cases hn : Ser.newDefinition senv p.flow with
      | error m => exact ⟨fun _ => .inr (.inr ⟨p, rfl, .inl ⟨m, hn⟩⟩), fun _ => ⟨m, rfl⟩⟩
      | ok b =>
        dsimp only
        unfold applyMappings
        cases hm : menv.newMapper p.mappings with
        | some m => exact ⟨fun _ => .inr (.inr ⟨p, rfl, .inr (by rw [hm]; exact fun h => nomatch h)⟩), fun _ => ⟨m, rfl⟩⟩
        | none =>
          refine ⟨fun ⟨_, h⟩ => (nomatch h), fun h => ?_⟩
          rcases h with h | ⟨m, h⟩ | ⟨p', h, h' | h'⟩
          · cases h
          · cases h
          · cases h; obtain ⟨m, h'⟩ := h'; rw [hn] at h'; cases h'
          · cases h; exact absurd hm h'

/-- What a run that was not refused starts with. -/
theorem Od.begin_ok {id : String} {pkg : Option (Except String FlowPackage)} {ins : AMap String Val} {s : Od}
    (h : Od.begin senv menv env id pkg ins = .ok s) :
    ∃ p b, pkg = some (.ok p) ∧ Ser.newDefinition senv p.flow = .ok b ∧
      s.run = Run.start { limit := limit } (Eng.init env id "" (Od.defOf p b) (menv.apply p.mappings ins).1) ∧
      s.out = if b.explicitReply then [] else [.method] := by
  unfold Od.begin at h
  split at h
  · cases h
  · cases h
  · rename_i p
    split at h
    · cases h
    · rename_i b hn
      split at h
      · cases h
      · rename_i ins' ha
        cases h
        unfold applyMappings at ha
        split at ha
        · cases ha
        · cases ha; exact ⟨p, b, rfl, hn, rfl, rfl⟩

/-- C54: before the flow is executed a first result is delivered exactly if the flow does not reply explicitly. -/
theorem C54_first {id : String} {p : FlowPackage} {ins : AMap String Val} {s : Od}
    (h : Od.begin senv menv env id (some (.ok p)) ins = .ok s) :
    (SaysReply senv p.flow → s.out = []) ∧ (¬ SaysReply senv p.flow → s.out = [.method]) := by
  obtain ⟨p', b, e, hn, _, ho⟩ := Od.begin_ok (limit := 0) h
  cases e
  have he := (C30_header hn).2.2
  constructor
  · intro hr; rw [ho, if_pos (he.2 hr)]
  · intro hr; rw [ho, if_neg (fun hx => hr (he.1 hx))]

/-- What is true of an on-demand run of the flow `d` that has not ended. -/
structure Od.Inv (limit : Int) (d : Def) (out : List OdResult) (s : Od) : Prop where
  out : s.out = out
  root : ∃ I, s.run.eng.insts[0]? = some I ∧ I.defn = d
  count : 0 ≤ s.run.count
  cap : s.run.count ≤ max 0 limit
  steps : (executed s.run.eng : Int) ≤ s.run.count

theorem Od.Inv.len {d : Def} {out : List OdResult} {s : Od} (h : Od.Inv limit d out s) : 0 < s.run.eng.insts.length := by
  obtain ⟨I, hI, _⟩ := h.root
  exact (List.getElem?_eq_some_iff.mp hI).1

theorem Od.root_step {e : Eng} {d : Def} (h : ∃ I, e.insts[0]? = some I ∧ I.defn = d) :
    ∃ I, (e.stepUntaped env).1.insts[0]? = some I ∧ I.defn = d := by
  obtain ⟨I, hI, hd⟩ := h
  obtain ⟨J, h1, h2⟩ := (Eng.Ops.step (env := env) (List.getElem?_eq_some_iff.mp hI).1).defn hI
  obtain ⟨K, h3, h4, _⟩ := (Eng.stepUntaped_spec (env := env) e).2.2 0 J h1
  exact ⟨K, h3, h4.trans (h2.trans hd)⟩

theorem Od.after_cases {d : Def} {out : List OdResult} {s : Od} (hd : s.run.done = false) (hs : Od.Inv limit d out s) (n : Nat) :
    ((after env limit s n).run.done = false ∧ Od.Inv limit d out (after env limit s n)) ∨
    ∃ m, m < n ∧ Od.Inv limit d out (after env limit s m) ∧ (after env limit s m).run.done = false ∧ (after env limit s m).died = false ∧
      after env limit s n = (after env limit s m).report limit := by
  induction n with
  | zero => exact .inl ⟨hd, hs⟩
  | succ n ih =>
    rcases ih with ⟨h1, h2⟩ | ⟨m, hm, h2, h3, h3', h4⟩
    · have hst : after env limit s (n + 1) = (after env limit s n).step env limit := rfl
      rw [hst]
      generalize ht : after env limit s n = t at *
      unfold Od.step
      by_cases hdied : t.died = true
      · rw [if_pos (by simp [hdied])]; exact .inl ⟨h1, h2⟩
      rw [if_neg (by simp [h1, hdied])]
      have hdied' : t.died = false := by simpa using hdied
      have hrep : ∃ m, m < n + 1 ∧ Od.Inv limit d out (after env limit s m) ∧ (after env limit s m).run.done = false ∧ (after env limit s m).died = false ∧
          t.report limit = (after env limit s m).report limit :=
        ⟨n, by omega, by rw [ht]; exact h2, by rw [ht]; exact h1, by rw [ht]; exact hdied', by rw [ht]⟩
      have hex := (Eng.stepUntaped_spec (env := env) t.run.eng).2.1
      have hse := Eng.step_executed (env := env) h2.len
      have hcur := h2.steps
      cases hk : t.run.eng.stack with
      | cons f fs =>
        refine .inl ⟨h1, h2.out, Od.root_step h2.root, h2.count, h2.cap, ?_⟩
        have hn : Spec.next env t.run.eng = none := by unfold Spec.next; rw [if_neg (by simp [hk])]
        rw [hn] at hse
        simp only [Option.isSome_none, Bool.false_eq_true, if_false, Nat.add_zero] at hse
        show ((executed (t.run.eng.stepUntaped env).1 : Nat) : Int) ≤ t.run.count
        rw [hex, hse]; exact hcur
      | nil =>
        dsimp only
        obtain ⟨I, hI, _⟩ := h2.root
        rw [hI]
        dsimp only
        by_cases hg : t.run.goesOn { limit := limit } I.status = true
        · rw [if_pos hg]
          have hg' := hg
          unfold Run.goesOn at hg'
          simp only [Bool.and_eq_true, decide_eq_true_eq] at hg'
          have hc := h2.count
          refine .inl ⟨h1, h2.out, Od.root_step h2.root, ?_, ?_, ?_⟩
          · show 0 ≤ t.run.count + 1; omega
          · show t.run.count + 1 ≤ _; omega
          · show ((executed (t.run.eng.stepUntaped env).1 : Nat) : Int) ≤ t.run.count + 1
            rw [hex, hse]
            split <;> push_cast <;> omega
        · rw [if_neg hg]; exact .inr hrep
    · refine .inr ⟨m, by omega, h2, h3, h3', ?_⟩
      show (after env limit s n).step env limit = _
      rw [h4]
      unfold Od.step
      rw [if_pos]
      unfold Od.report
      split <;> rfl

/-- What a run that was not refused has at its start. -/
theorem Od.begin_inv (limit : Int) {id : String} {pkg : Option (Except String FlowPackage)} {ins : AMap String Val} {s : Od}
    (h : Od.begin senv menv env id pkg ins = .ok s) :
    ∃ p b, pkg = some (.ok p) ∧ Ser.newDefinition senv p.flow = .ok b ∧ s.run.done = false ∧ Od.Inv limit (Od.defOf p b) s.out s := by
  obtain ⟨p, b, hp, hb, hrun, _⟩ := Od.begin_ok (limit := limit) h
  have hst : Started env (Eng.init env id "" (Od.defOf p b) (menv.apply p.mappings ins).1) := ⟨_, _, _, _, rfl⟩
  obtain ⟨I, hI⟩ := root_exists (env := env) (id := id) (uri := "") (d := Od.defOf p b) (ins := (menv.apply p.mappings ins).1) 0
  refine ⟨p, b, hp, hb, by rw [hrun]; rfl, rfl, ⟨I, by rw [hrun]; exact hI, root_defn hI⟩, ?_, ?_, ?_⟩
  · rw [hrun]; exact Int.le_refl _
  · rw [hrun]; show (0 : Int) ≤ _; omega
  · rw [hrun]
    show ((executed (Eng.init env id "" (Od.defOf p b) (menv.apply p.mappings ins).1) : Nat) : Int) ≤ 0
    rw [C18_starts_at_zero hst]; exact Int.le_refl _

/-- C54: when the run has ended with a completed flow, exactly one further result was delivered, the return data and error
of the flow; with a failed flow that did not use up the step limit, exactly its error; with an unfinished flow at the step
limit, exactly the limit error. Before its end it delivers nothing.

Partial: missing are flows that end unfinished below the limit, which deliver nothing (as in `C17_negation_none`), and flows
that fail with the last allowed step (`C54_negation_limit`). -/
theorem C54_result_partial {id : String} {pkg : Option (Except String FlowPackage)} {ins : AMap String Val} {s : Od}
    (h : Od.begin senv menv env id pkg ins = .ok s) (n : Nat) :
    ((Od.after env limit s n).run.done = false → (Od.after env limit s n).out = s.out) ∧
    ((Od.after env limit s n).run.done = true → ∀ I : Inst, (Od.after env limit s n).run.eng.insts[0]? = some I →
      (I.status = .completed → (Od.after env limit s n).out = .result ⟨I.fixReturnData.returnData, I.returnError⟩ :: s.out) ∧
      (I.status = .failed → (Od.after env limit s n).run.count ≠ limit →
        (Od.after env limit s n).out = .result ⟨none, I.returnError⟩ :: s.out) ∧
      (I.status ≠ .completed → I.status ≠ .failed → (Od.after env limit s n).run.count = limit →
        (Od.after env limit s n).out = .result ⟨none, some (limitErr (Od.after env limit s n).run.eng.id limit)⟩ :: s.out)) := by
  obtain ⟨p, b, _, _, hd, hinv⟩ := Od.begin_inv limit h
  rcases Od.after_cases (env := env) hd hinv n with ⟨h1, h2⟩ | ⟨m, hm, hlm, _, _, h4⟩
  · exact ⟨fun _ => h2.out, (fun hx => by rw [h1] at hx; cases hx)⟩
  · have hrep : ∀ t : Od, (t.report limit).run.done = true ∧ (t.report limit).run.eng = t.run.eng ∧ (t.report limit).run.count = t.run.count := by
      intro t; unfold Od.report; split <;> exact ⟨rfl, rfl, rfl⟩
    rw [h4]
    obtain ⟨r1, r2, r3⟩ := hrep (Od.after env limit s m)
    refine ⟨(fun hx => by rw [r1] at hx; cases hx), fun _ I hI => ?_⟩
    rw [r2] at hI ⊢
    rw [r3]
    have hout : ((Od.after env limit s m).report limit).out = Od.finalResults limit (Od.after env limit s m).run I ++ s.out := by
      unfold Od.report; rw [hI, ← hlm.out]
    rw [hout]
    unfold Od.finalResults Od.limitResults
    refine ⟨fun hs => ?_, fun hs hc => ?_, fun hs hs' hc => ?_⟩
    · rw [hs]; dsimp only
      rw [if_neg (by simp), returnError_fixReturnData]; rfl
    · rw [hs]; dsimp only
      rw [if_neg (fun hx => hc hx.1)]; rfl
    · cases hst : I.status with
      | completed => exact absurd hst hs
      | failed => exact absurd hst hs'
      | _ => dsimp only; rw [if_pos ⟨hc, by simp⟩]; rfl

/-- C54: the steps are bounded by the limit, as those of every run. -/
theorem C54_steps {id : String} {pkg : Option (Except String FlowPackage)} {ins : AMap String Val} {s : Od}
    (h : Od.begin senv menv env id pkg ins = .ok s) (n : Nat) : (executed (Od.after env limit s n).run.eng : Int) ≤ max 0 limit := by
  obtain ⟨p, b, _, _, hd, hinv⟩ := Od.begin_inv limit h
  rcases Od.after_cases (env := env) hd hinv n with ⟨_, h2⟩ | ⟨m, hm, h2, _, _, h4⟩
  · have h3 := h2.steps; have h4 := h2.cap; omega
  · have : (Od.after env limit s n).run.eng = (Od.after env limit s m).run.eng := by
      rw [h4]; unfold Od.report; split <;> rfl
    rw [this]
    have h5 := h2.steps; have h6 := h2.cap; omega

/-- C54: the flow that is executed is that of the package, with the declared inputs and outputs of the package. -/
theorem C54_definition {id : String} {p : FlowPackage} {ins : AMap String Val} {s : Od}
    (h : Od.begin senv menv env id (some (.ok p)) ins = .ok s) (n : Nat) :
    ∃ I b, (Od.after env limit s n).run.eng.insts[0]? = some I ∧ Ser.newDefinition senv p.flow = .ok b ∧
      I.defn.main = b.toDef.main ∧ I.defn.eh = b.toDef.eh ∧ I.defn.name = p.flow.name ∧ I.defn.inputs = p.inputs ∧
      I.defn.hasOutputs = p.hasOutputs ∧ I.defn.outputs = p.outputs := by
  obtain ⟨p', b, e, hb, hd, hinv⟩ := Od.begin_inv limit h
  cases e
  have hfin : ∃ I, (Od.after env limit s n).run.eng.insts[0]? = some I ∧ I.defn = Od.defOf p b := by
    rcases Od.after_cases (env := env) hd hinv n with ⟨_, h2⟩ | ⟨m, hm, h2, _, _, h4⟩
    · exact h2.root
    · have : (Od.after env limit s n).run.eng = (Od.after env limit s m).run.eng := by
        rw [h4]; unfold Od.report; split <;> rfl
      rw [this]; exact h2.root
  obtain ⟨I, hI, hdef⟩ := hfin
  refine ⟨I, b, hI, hb, ?_, ?_, ?_, ?_, ?_, ?_⟩ <;> rw [hdef]
  · rfl
  · rfl
  · exact (C30_header hb).1
  · rfl
  · rfl
  · rfl

/-- C54: as long as no called flow fails, an on-demand flow is executed like every other flow.

Partial: missing are flows that call a flow which fails (`C54_negation_called`). -/
theorem C54_same_partial {id : String} {pkg : Option (Except String FlowPackage)} {ins : AMap String Val} {s : Od}
    (h : Od.begin senv menv env id pkg ins = .ok s) (n : Nat)
    (hc : ∀ m ≤ n, ∀ i ≠ 0, flowStatus (Eng.run env s.run.eng m) i ≠ some .failed)
    (hd : (Od.after env limit s n).run.done = false) :
    (Od.after env limit s n).died = false ∧ (Od.after env limit s n).run = Run.run env { limit := limit } s.run n ∧
      (Od.after env limit s n).run.eng = Eng.run env s.run.eng n := by
  induction n with
  | zero =>
    refine ⟨?_, rfl, rfl⟩
    unfold Od.begin at h
    split at h
    · cases h
    · cases h
    · split at h
      · cases h
      · split at h <;> cases h
        rfl
  | succ n ih =>
    have hdn : (Od.after env limit s n).run.done = false := by
      cases hx : (Od.after env limit s n).run.done with
      | false => rfl
      | true =>
        have : Od.after env limit s (n + 1) = Od.after env limit s n := by
          show Od.step env limit (Od.after env limit s n) = _
          unfold Od.step; rw [if_pos (by simp [hx])]
        rw [this, hx] at hd; cases hd
    obtain ⟨h1, h2, h3⟩ := ih (fun m hm => hc m (by omega)) hdn
    have hst : Od.after env limit s (n + 1) = (Od.after env limit s n).step env limit := rfl
    have hrun : Run.run env { limit := limit } s.run (n + 1) = (Od.after env limit s n).run.step env { limit := limit } := by
      rw [h2]; rfl
    have heng : Eng.run env s.run.eng (n + 1) = (Od.after env limit s n).run.eng.step env := by rw [h3]; rfl
    rw [hst] at hd ⊢
    rw [hrun, heng]
    have hbare : (Od.after env limit s n).run.eng.stepUntaped env = ((Od.after env limit s n).run.eng.step env, false) := by
      unfold Eng.stepUntaped
      cases hm : (Od.after env limit s n).run.eng.midStep env with
      | none => rfl
      | some x =>
        obtain ⟨m, b⟩ := x
        obtain ⟨i, hi, hf⟩ := Eng.midStep_failed hm
        exact absurd (heng ▸ hf) (hc (n + 1) (Nat.le_refl _) i hi)
    generalize Od.after env limit s n = t at *
    unfold Od.step Run.step at *
    rw [if_neg (by simp [hdn, h1])] at hd ⊢
    rw [if_neg (by simp [hdn])]
    rw [hbare] at hd ⊢
    cases hk : t.run.eng.stack with
    | cons f fs => exact ⟨h1, rfl, rfl⟩
    | nil =>
      rw [hk] at hd
      dsimp only at hd ⊢
      cases hI : t.run.eng.insts[0]? with
      | none =>
        rw [hI] at hd
        exfalso
        revert hd
        unfold Od.report
        rw [hI]
        exact fun h => nomatch h
      | some I =>
        rw [hI] at hd
        dsimp only at hd ⊢
        by_cases hg : t.run.goesOn { limit := limit } I.status = true
        · rw [if_pos hg, if_pos hg]; exact ⟨rfl, rfl, rfl⟩
        · rw [if_neg hg] at hd
          exfalso
          revert hd
          unfold Od.report
          rw [hI]
          exact fun h => nomatch h

/-- A run that is done or has died stays as it is. -/
theorem Od.after_over {s : Od} {m : Nat} (h : ((Od.after env limit s m).run.done || (Od.after env limit s m).died) = true) (n : Nat) :
    Od.after env limit s (m + n) = Od.after env limit s m := by
  induction n with
  | zero => rfl
  | succ n ih =>
    show Od.step env limit (Od.after env limit s (m + n)) = _
    rw [ih]
    unfold Od.step
    rw [if_pos h]

/-- Mappings that pass on the inputs. -/
def passOn : MapEnv := { newMapper := fun _ => none, apply := fun _ i => (i, none) }

/-- One task that fails. -/
def failOne : FlowPackage := { flow := { name := "f", tasks := [{ id := "A", activity := some "x" }] } }

/-- The activity fails. -/
def failEnv : Env := tableEnv (fun _ => { res := .err (.plain "boom") }) (fun _ => .ok true)

/-- The calls of `HandleResult`, oldest first: the first result, or the message of the error delivered. -/
def messages (s : Od) : List (Option String) :=
  s.out.reverse.map fun r => match r with
    | .method => some "id"
    | .result r => r.err.map Err.msg

/-- C54 fails: a flow that fails with the last step that the limit allows delivers two results, first the limit error and
then its own error. -/
theorem C54_negation_limit :
    (Od.begin lenient passOn failEnv "1" (some (.ok failOne)) []).toOption.map (fun s => (messages (Od.after failEnv 1 s 20)).length) = some 3 ∧
    (Od.begin lenient passOn failEnv "1" (some (.ok failOne)) []).toOption.map (fun s => (messages (Od.after failEnv 2 s 20))) =
      some [some "id", some "boom"] := by decide

/-- Outside code for a package whose task calls the flow `r`. -/
def callsFlow : Ser.SerEnv := { lenient with activity := fun _ _ => .ok { kind := .subflow "r" } }

/-- The called flow consists of one task, whose activity fails with `a`. -/
def calledFails (a : ActRes) : Env :=
  { tableEnv (fun t => if t = "X" then { res := a } else {}) (fun _ => .ok true) with
    defs := fun u => if u = "r" then .ok (some { name := "s", main := ⟨[tk "X"], []⟩ }) else .ok none }

/-- The on-demand run of a flow whose only task calls that flow. -/
def odCalls (a : ActRes) : Option Od := (Od.begin callsFlow passOn (calledFails a) "1" (some (.ok failOne)) []).toOption

/-- C54 fails: if a called flow fails, the on-demand flow never finishes and never delivers a result; the calling task keeps waiting. A
flow that is not delivered on demand fails with the error of the called flow. -/
theorem C54_negation_called :
    (∃ s, odCalls (.err (.plain "boom")) = some s ∧ ∀ n, (Od.after (calledFails (.err (.plain "boom"))) 100 s (10 + n)).run.done = true ∧
      messages (Od.after (calledFails (.err (.plain "boom"))) 100 s (10 + n)) = [some "id"] ∧
      flowStatus (Od.after (calledFails (.err (.plain "boom"))) 100 s (10 + n)).run.eng 0 = some .active ∧
      flowStatus (Od.after (calledFails (.err (.plain "boom"))) 100 s (10 + n)).run.eng 1 = some .failed ∧
      (((Od.after (calledFails (.err (.plain "boom"))) 100 s (10 + n)).run.eng.obj? 0 0).map (·.status)) = some .waiting ∧
      (Run.run (calledFails (.err (.plain "boom"))) { limit := 100 } s.run (10 + n)).results.map (fun r => r.err.map Err.msg) = [some "boom"]) := by
  refine ⟨_, rfl, fun n => ?_⟩
  have h : ∀ {s : Run} {c : RunCfg} {env : Env} {m : Nat}, (Run.run env c s m).done = true → ∀ n, Run.run env c s (m + n) = Run.run env c s m := by
    intro s c env m h n
    induction n with
    | zero => rfl
    | succ n ih =>
      show Run.step env c (Run.run env c s (m + n)) = _
      rw [ih, Run.step_done h]
  rw [Od.after_over (by decide +kernel) n, h (by decide +kernel) n]
  decide +kernel

/-- The called flow has a loop whose condition panics. -/
def calledPanics : Env :=
  { calledFails .done with
    cond := fun _ _ _ => .panic "boom"
    defs := fun u => if u = "r" then .ok (some { name := "s", main := ⟨[{ tk "X" with kind := .doWhile, loop := some { hasCondition := true } }], []⟩ }) else .ok none }

/-- C54 fails: if the condition of a loop panics in a called flow, the process ends before anything else is delivered. -/
theorem C54_negation_dies :
    ∃ s, (Od.begin callsFlow passOn calledPanics "1" (some (.ok failOne)) []).toOption = some s ∧ ∀ n, (Od.after calledPanics 100 s (10 + n)).died = true ∧
      messages (Od.after calledPanics 100 s (10 + n)) = [some "id"] := by
  refine ⟨_, rfl, fun n => ?_⟩
  rw [Od.after_over (by decide +kernel) n]
  decide +kernel

/-- A called flow that succeeds. -/
example : (odCalls .done).map (fun s => ((List.range 6).all fun m => decide (flowStatus (Eng.run (calledFails .done) s.run.eng m) 1 ≠ some .failed),
    (Od.after (calledFails .done) 100 s 3).run.done, flowStatus (Od.after (calledFails .done) 100 s 10).run.eng 1,
    messages (Od.after (calledFails .done) 100 s 10))) = some (true, false, some .completed, [some "id", none]) := by decide +kernel

/-- C54 fails: the first result never contains the identifier of the instance. -/
theorem C54_negation_id {id : String} {pkg : Option (Except String FlowPackage)} {ins : AMap String Val} {s : Od}
    (h : Od.begin senv menv env id pkg ins = .ok s) : ∀ r, OdResult.result r ∉ s.out := by
  obtain ⟨p, b, _, _, _, ho⟩ := Od.begin_ok (limit := 0) h
  intro r hr
  rw [ho] at hr
  split at hr <;> simp at hr

/-- C54 fails: mappings that cannot be applied are not reported; the flow is started with what they left. -/
theorem C54_negation_inputs (menv' : MapEnv) (hn : menv'.newMapper = menv.newMapper) (h : ∀ m i, (menv'.apply m i).1 = (menv.apply m i).1)
    (id : String) (pkg : Option (Except String FlowPackage)) (ins : AMap String Val) :
    Od.begin senv menv' env id pkg ins = Od.begin senv menv env id pkg ins := by
  unfold Od.begin applyMappings
  simp only [hn, h]

/-- A flow that completes, with and without an activity that replies. -/
example : (Od.begin lenient passOn plainEnv "1" (some (.ok failOne)) []).toOption.map
    (fun s => (s.out.length, (Od.after plainEnv 5 s 20).run.done, flowStatus (Od.after plainEnv 5 s 20).run.eng 0, messages (Od.after plainEnv 5 s 20))) =
    some (1, true, some .completed, [some "id", none]) := by decide
example : (Od.begin { lenient with activity := fun _ _ => .ok { replies := true } } passOn plainEnv "1" (some (.ok failOne)) []).toOption.map
    (fun s => messages (Od.after plainEnv 5 s 20)) = some [none] := by decide
example : (Od.begin lenient { passOn with newMapper := fun _ => some "bad mapping" } plainEnv "1" (some (.ok failOne)) []).toOption.isNone := by decide
example : SaysReply lenient { name := "f", explicitReply := true, tasks := [] } := .inl rfl

end Flow
