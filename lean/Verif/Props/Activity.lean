import Verif.Proofs.Activity

/-
C76 - C78, C81: the activities of a flow definition: reconfiguration, cleanup, constants, acceptance.
-/

namespace Flow

open Spec Act Ser

variable {env : ActEnv}

/-! ### C76 -/

/-- C76, as far as it holds: a description that fits replaces exactly the given settings of the tasks it names, in the flow and
in the error handler, and no error is reported. Missing: descriptions that do not fit, see the negations. -/
theorem C76_applied_partial {d : CDef} {rep : NewRep} (hm : Fits env d.main rep.tasks)
    (hh : ∀ rs m, rep.handler = some rs → d.handler = some m → Fits env m rs) :
    (reconfigure env d (some rep)).result = .ok () ∧ Applied env d.main rep.tasks (reconfigure env d (some rep)).defn.main ∧
    (rep.handler = none ∨ d.handler = none → (reconfigure env d (some rep)).defn.handler = d.handler) ∧
    ∀ rs m, rep.handler = some rs → d.handler = some m → ∃ m', (reconfigure env d (some rep)).defn.handler = some m' ∧ Applied env m rs m' := by
  obtain ⟨h1, h2⟩ := reconfigureTasks_applied rep.tasks ({ tasks := d.main } : RSt) rfl hm
  unfold reconfigure
  dsimp only
  rw [if_neg (by rw [h1]; exact Bool.false_ne_true)]
  cases hr : rep.handler with
  | none => exact ⟨rfl, h2, fun _ => rfl, fun _ _ h => nomatch h⟩
  | some rs =>
    cases hd : d.handler with
    | none => exact ⟨rfl, h2, fun _ => hd, fun _ _ _ h => nomatch h⟩
    | some m =>
      obtain ⟨h3, h4⟩ := reconfigureTasks_applied rs
        { reconfigureTasks env rep.tasks ({ tasks := d.main } : RSt) with tasks := m } h1 (hh rs m hr hd)
      refine ⟨?_, h2, fun h => ?_, fun rs' m' e1 e2 => ?_⟩
      · show RSt.result _ = _
        unfold RSt.result
        rw [h3]; rfl
      · rcases h with h | h <;> cases h
      · cases e1; cases e2
        exact ⟨_, rfl, h4⟩

/-- C76: the activities of the named tasks, and no others, are told their settings, each once. For the tasks of the flow;
`new` are the calls, newest first. -/
theorem C76_told_partial {d : CDef} {rep : NewRep} (hm : Fits env d.main rep.tasks) (hh : rep.handler = none ∨ d.handler = none) :
    (((reconfigure env d (some rep)).calls.map (·.1)).Nodup ∧
      (∀ t m, (t, m) ∈ (reconfigure env d (some rep)).calls → t ∈ rep.tasks.map (·.id) ∧ ∃ c, d.main.get? t = some (some c) ∧ Changeable env c ∧
        (reconfigure env d (some rep)).defn.main.get? t = some (some { c with settings := m })) ∧
      ∀ r ∈ rep.tasks, ∀ c, d.main.get? r.id = some (some c) → Changeable env c → r.id ∈ (reconfigure env d (some rep)).calls.map (·.1)) := by
  obtain ⟨h1, _⟩ := reconfigureTasks_applied rep.tasks ({ tasks := d.main } : RSt) rfl hm
  obtain ⟨new, h2, h3⟩ := reconfigureTasks_calls rep.tasks ({ tasks := d.main } : RSt) rfl hm
  have h2 : _ = new := h2.trans (List.append_nil _)
  have e : (reconfigure env d (some rep)).calls = new ∧
      (reconfigure env d (some rep)).defn.main = (reconfigureTasks env rep.tasks ({ tasks := d.main } : RSt)).tasks := by
    unfold reconfigure
    dsimp only
    rw [if_neg (by rw [h1]; exact Bool.false_ne_true)]
    unfold reconfigureHandler
    split
    · rename_i h4 h5; rcases hh with hh | hh
      · rw [hh] at h4; cases h4
      · rw [hh] at h5; cases h5
    · exact ⟨h2, rfl⟩
  rw [e.1, e.2]
  exact h3

/-- Whatever is given and whatever fails, nothing but settings changes: no task appears or disappears, and references, types,
inputs, outputs and schemas stay. -/
theorem C76_only_settings (d : CDef) (rep : Option NewRep) (t : TaskId) (c : ActCfg) :
    (d.main.get? t = some (some c) → ∃ m, (reconfigure env d rep).defn.main.get? t = some (some { c with settings := m })) ∧
    ((reconfigure env d rep).defn.main.get? t = none ↔ d.main.get? t = none) ∧
    ((reconfigure env d rep).defn.handler = none ↔ d.handler = none) ∧
    ∀ h, d.handler = some h → ∃ h', (reconfigure env d rep).defn.handler = some h' ∧ (h'.get? t = none ↔ h.get? t = none) ∧
      (h.get? t = some (some c) → ∃ m, h'.get? t = some (some { c with settings := m })) := by
  have key : ∀ (rs : List TaskActRep) (s : RSt),
      (s.tasks.get? t = some (some c) → ∃ m, (reconfigureTasks env rs s).tasks.get? t = some (some { c with settings := m })) ∧
      ((reconfigureTasks env rs s).tasks.get? t = none ↔ s.tasks.get? t = none) := by
    intro rs s
    obtain ⟨h1, h2, h3⟩ := reconfigureTasks_only (env := env) rs s t
    refine ⟨h3 c, ⟨fun h => ?_, h1⟩⟩
    cases hs : s.tasks.get? t with
    | none => rfl
    | some o =>
      cases o with
      | none => rw [h2 hs] at h; cases h
      | some c' => obtain ⟨m, h4⟩ := h3 c' hs; rw [h4] at h; cases h
  cases rep with
  | none => exact ⟨fun h => ⟨c.settings, h⟩, .rfl, .rfl, fun h hh => ⟨h, hh, .rfl, fun h => ⟨c.settings, h⟩⟩⟩
  | some rep =>
    have k1 := key rep.tasks { tasks := d.main }
    have same : ∀ h, d.handler = some h → ∃ h', d.handler = some h' ∧ (h'.get? t = none ↔ h.get? t = none) ∧
      (h.get? t = some (some c) → ∃ m, h'.get? t = some (some { c with settings := m })) := fun h hh => ⟨h, hh, .rfl, fun h => ⟨c.settings, h⟩⟩
    unfold reconfigure
    dsimp only
    split
    · exact ⟨k1.1, k1.2, .rfl, same⟩
    · unfold reconfigureHandler
      split
      · rename_i rs h _ hd
        have k2 := key rs { reconfigureTasks env rep.tasks ({ tasks := d.main } : RSt) with tasks := h }
        refine ⟨k1.1, k1.2, ⟨(fun h => nomatch h), fun h => ?_⟩, fun h' hh => ?_⟩
        · rw [hd] at h; cases h
        · rw [hd] at hh; cases hh
          exact ⟨_, rfl, k2.2, k2.1⟩
      · exact ⟨k1.1, k1.2, .rfl, same⟩

/-- C76: bytes that are no description change nothing, no activity is told, and the caller gets an error. -/
theorem C76_invalid (d : CDef) : (reconfigure env d none).defn = d ∧ (reconfigure env d none).calls = [] ∧
    ∃ m, (reconfigure env d none).result = .error (.err m) := ⟨rfl, rfl, _, rfl⟩

/-- C76: whatever is given, every activity that is told its settings belongs to a task of the flow or of the handler, and if it
rejects them, its error is logged. -/
theorem C76_logged (d : CDef) (rep : Option NewRep) (t : TaskId) (m : AMap String Val) (h : (t, m) ∈ (reconfigure env d rep).calls) :
    ∃ c, (d.main.get? t = some (some c) ∨ ∃ h, d.handler = some h ∧ h.get? t = some (some c)) ∧
      ∀ err, env.reconfigure c.ref m = some err → err ∈ (reconfigure env d rep).errors := by
  cases rep with
  | none => cases h
  | some rep =>
    obtain ⟨_, h1⟩ := reconfigureTasks_told (env := env) rep.tasks ({ tasks := d.main } : RSt)
    have main : ∀ p ∈ (reconfigureTasks env rep.tasks ({ tasks := d.main } : RSt)).calls, ∃ c, d.main.get? p.1 = some (some c) ∧
        ∀ err, env.reconfigure c.ref p.2 = some err → err ∈ (reconfigureTasks env rep.tasks ({ tasks := d.main } : RSt)).errors := by
      intro p hp
      rcases h1 p hp with h2 | h2
      · cases h2
      · exact h2
    unfold reconfigure at h ⊢
    dsimp only at h ⊢
    split at h
    · rename_i hp
      rw [if_pos hp]
      obtain ⟨c, h2, h3⟩ := main _ h
      exact ⟨c, .inl h2, h3⟩
    · rename_i hp
      rw [if_neg hp]
      unfold reconfigureHandler at h ⊢
      split at h
      · rename_i rs hm e1 e2
        rw [e2]
        obtain ⟨k1, k2⟩ := reconfigureTasks_told (env := env) rs
          { reconfigureTasks env rep.tasks ({ tasks := d.main } : RSt) with tasks := hm }
        rcases k2 _ h with h2 | ⟨c, h2, h3⟩
        · obtain ⟨c, h3, h4⟩ := main _ h2
          exact ⟨c, .inl h3, fun err he => k1 _ (h4 err he)⟩
        · exact ⟨c, .inr ⟨hm, rfl, h2⟩, h3⟩
      · obtain ⟨c, h2, h3⟩ := main _ h
        exact ⟨c, .inl h2, h3⟩

/-- An environment with one activity: the setting `bad` cannot be resolved. -/
def httpEnv : ActEnv where
  alias := fun _ => none
  get := fun r => if r = "http" then some { inputs := [("n", "integer")], reconfigurable := true, needsCleanup := true } else none
  resolve := fun _ n v => if n = "bad" then (.null, some "invalid") else (v, none)
  isExpr := fun _ => false
  coerce := fun v _ => match v with
    | .int n => (.int n, none)
    | _ => (.int 0, some "not a number")
  mapper := fun _ => none
  schema := fun _ => none
  create := fun _ _ => none
  reconfigure := fun _ _ => none

/-- Settings `url` and `bad`. -/
def http : ActCfg := { ref := "http", type := "http", settings := [("url", .int 1), ("bad", .int 2)] }

def settingsOf (m : Option Acts) (t : TaskId) : List (String × Option Int) :=
  match m.bind (·.get? t) with
  | some (some c) => c.settings.map (fun p => (p.1, match p.2 with
      | .int n => some n
      | _ => none))
  | _ => []

/-- The hypotheses of `C76_applied_partial` and `C76_told_partial`: one task of the flow, one of the handler, one that is unknown. -/
example : Fits httpEnv [("A", some http)] [⟨"A", some { settings := [("url", .int 7)] }⟩, ⟨"X", none⟩] ∧
    Fits httpEnv [("H", some http)] [⟨"H", some { settings := [("new", .int 8)] }⟩] := by
  constructor
  · refine ⟨by decide, ?_, ?_⟩
    · intro r hr
      rcases List.mem_cons.1 hr with e | hr
      · subst e; exact fun h => nomatch h
      · rw [List.mem_singleton.1 hr]; exact fun h => nomatch h
    · intro r hr c h _
      rcases List.mem_cons.1 hr with e | hr
      · subst e
        exact ⟨_, rfl, by decide, fun p hp => by rw [List.mem_singleton.1 hp]; rfl⟩
      · rw [List.mem_singleton.1 hr] at h; cases h
  · refine ⟨by decide, ?_, ?_⟩
    · intro r hr; rw [List.mem_singleton.1 hr]; exact fun h => nomatch h
    · intro r hr c h _
      rw [List.mem_singleton.1 hr] at h ⊢
      exact ⟨_, rfl, by decide, fun p hp => by rw [List.mem_singleton.1 hp]; rfl⟩

example : settingsOf (some (reconfigure httpEnv ⟨[("A", some http)], none⟩ (some ⟨[⟨"A", some { settings := [("url", .int 7)] }⟩], none⟩)).defn.main) "A" =
    [("url", some 7), ("bad", some 2)] := by decide

/-- The hypothesis of `C76_logged`: an activity that rejects its settings. The caller is not told. -/
example : (fun o : ROut => (o.calls.map (·.1), o.errors, o.result)) (reconfigure { httpEnv with reconfigure := fun _ _ => some "no" }
    ⟨[("A", some http)], none⟩ (some ⟨[⟨"A", some { settings := [("url", .int 7)] }⟩], none⟩)) = (["A"], ["no"], .ok ()) := rfl

/-- C76 fails: a setting that cannot be resolved is lost, the settings before it are changed, the activity is not told, and no
error is reported to the caller. -/
theorem C76_negation_error : (fun o : ROut => (settingsOf (some o.defn.main) "A", o.calls.length, o.errors.length, o.result))
    (reconfigure httpEnv ⟨[("A", some http)], none⟩ (some ⟨[⟨"A", some { settings := [("url", .int 7), ("bad", .int 9)] }⟩], none⟩)) =
    ([("url", some 7), ("bad", none)], 0, 1, .ok ()) := rfl

/-- C76 fails: the outcome depends on the order in which Go ranges over the given settings. -/
theorem C76_negation_order :
    settingsOf (some (reconfigure httpEnv ⟨[("A", some http)], none⟩
      (some ⟨[⟨"A", some { settings := [("url", .int 7), ("bad", .int 9)] }⟩], none⟩)).defn.main) "A" = [("url", some 7), ("bad", none)] ∧
    settingsOf (some (reconfigure httpEnv ⟨[("A", some http)], none⟩
      (some ⟨[⟨"A", some { settings := [("bad", .int 9), ("url", .int 7)] }⟩], none⟩)).defn.main) "A" = [("url", some 1), ("bad", none)] := by
  decide

/-- C76 fails: settings that are given to a task without settings are ignored. -/
theorem C76_negation_first : (fun o : ROut => (settingsOf (some o.defn.main) "A", o.calls.length, o.errors.length, o.result))
    (reconfigure httpEnv ⟨[("A", some { http with settings := [] })], none⟩ (some ⟨[⟨"A", some { settings := [("url", .int 7)] }⟩], none⟩)) =
    ([], 0, 0, .ok ()) := rfl

/-- C76 fails: naming a task without activity, or naming a task without giving an activity, is a nil pointer dereference, and
tasks named later keep their settings. -/
theorem C76_negation_panic :
    (fun o : ROut => (settingsOf (some o.defn.main) "A", o.result))
      (reconfigure httpEnv ⟨[("A", some http), ("N", none)], none⟩ (some ⟨[⟨"N", none⟩, ⟨"A", some { settings := [("url", .int 7)] }⟩], none⟩)) =
      ([("url", some 1), ("bad", some 2)], .error .panic) ∧
    (reconfigure httpEnv ⟨[("A", some http)], none⟩ (some ⟨[⟨"A", none⟩], none⟩)).result = .error .panic := ⟨rfl, rfl⟩

/-! ### C77 -/

/-- C77, as far as it holds: if every task of the flow has an activity, exactly the activities of the flow that have resources
of their own are cleaned up, each once. Missing: the error handler, and flows in which a task has no activity. -/
theorem C77_main_partial {d : CDef} (ha : ∀ p ∈ d.main, p.2 ≠ none) (hn : d.main.keys.Nodup) :
    (cleanup env d).2 = true ∧ (cleanup env d).1.Nodup ∧
    ∀ t, t ∈ (cleanup env d).1 ↔ ∃ c, d.main.get? t = some (some c) ∧ Disposable env c :=
  cleanTasks_all ha hn

/-- The hypotheses hold, and an activity is cleaned up. -/
example : (∀ p ∈ ([("A", some http), ("B", some { http with ref := "log" })] : Acts), p.2 ≠ none) ∧
    (AMap.keys ([("A", some http), ("B", some { http with ref := "log" })] : Acts)).Nodup ∧
    cleanup httpEnv ⟨[("A", some http), ("B", some { http with ref := "log" })], none⟩ = (["A"], true) := by
  refine ⟨fun p hp => ?_, by decide, by decide⟩
  rcases List.mem_cons.1 hp with e | hp
  · subst e; exact fun h => nomatch h
  · rw [List.mem_singleton.1 hp]; exact fun h => nomatch h

/-- C77 fails: activities of the error handler are never cleaned up. -/
theorem C77_negation_handler : Disposable httpEnv http ∧ ∀ h : Acts, cleanup httpEnv ⟨[], some h⟩ = ([], true) :=
  ⟨⟨_, rfl, rfl, rfl⟩, fun _ => rfl⟩

/-- C77 fails: a task without activity ends the cleanup with a nil pointer dereference; the activities after it are not cleaned up. -/
theorem C77_negation_panic : cleanup httpEnv ⟨[("N", none), ("A", some http)], none⟩ = ([], false) := by decide

/-! ### C78 -/

/-- C78: in a flow that is accepted, every given input is stored as it should be: expressions and undeclared inputs as they are,
constants converted to their declared type. The exceptions are connection objects, which are kept, and the test mode, in which the
result of a failing conversion is kept. -/
theorem C78_inputs {r : ActRep} {c : ActCfg} (h : createCfg env r = .ok c) : ∃ d, env.get c.ref = some d ∧
    (∀ k v, r.input.get? k = some v → ∃ w, c.inputs.get? k = some w ∧
      (Stored env (d.inputs.get? k) v w ∨
        Misfit env (d.inputs.get? k) v ∧ (d.inputs.get? k = some "connection" ∧ ConnectionObject v ∧ w = v ∨
          env.testMode = true ∧ ∃ T err, d.inputs.get? k = some T ∧ env.coerce v T = (w, some err)))) ∧
    ∀ k, r.input.get? k = none → c.inputs.get? k = none := by
  obtain ⟨d, ins, outs, _, hd, _, hi, _, ei, _⟩ := createCfg_ok h
  obtain ⟨h1, h2⟩ := convertAll_get? hi
  refine ⟨d, hd, fun k v hk => ?_, fun k hk => by rw [ei]; exact h2 k hk⟩
  obtain ⟨w, hw, hf⟩ := h1 k v hk
  refine ⟨w, by rw [ei]; exact hw, ?_⟩
  unfold convertInput at hf
  split at hf
  · rename_i hx; cases hf; exact .inl (.inl ⟨.inl hx, rfl⟩)
  · rename_i hx
    have hx : env.isExpr v = false := by simpa using hx
    rcases declared_ok hf with ⟨h3, h4⟩ | ⟨T, h3, h4⟩ | ⟨T, u, err, h3, h4, h5⟩
    · exact .inl (.inl ⟨.inr h3, h4⟩)
    · exact .inl (.inr ⟨hx, T, h3, h4⟩)
    · refine .inr ⟨⟨hx, T, u, err, h3, h4⟩, ?_⟩
      unfold onFailure at h5
      split at h5
      · rename_i hc; cases h5
        exact .inl ⟨by rw [h3, hc.1], isConnection_iff.1 hc.2, rfl⟩
      · split at h5
        · rename_i ht; cases h5; exact .inr ⟨ht, T, err, h3, h4⟩
        · cases h5

/-- C78: outputs, without exceptions. -/
theorem C78_outputs {r : ActRep} {c : ActCfg} (h : createCfg env r = .ok c) : ∃ d, env.get c.ref = some d ∧
    ∀ k v, r.output.get? k = some v → ∃ m w, c.outputs = some m ∧ m.get? k = some w ∧ Stored env (d.outputs.get? k) v w := by
  obtain ⟨d, ins, outs, _, hd, _, _, ho, _, _, eo⟩ := createCfg_ok h
  obtain ⟨h1, _⟩ := convertAll_get? ho
  refine ⟨d, hd, fun k v hk => ?_⟩
  obtain ⟨w, hw, hf⟩ := h1 k v hk
  refine ⟨outs, w, eo.trans (if_neg fun e => ?_), hw, ?_⟩
  · rw [e] at hk; cases hk
  unfold convertOutput at hf
  split at hf
  · rename_i hx; cases hf; exact .inl ⟨.inl hx, rfl⟩
  · rename_i hx
    have hx : env.isExpr v = false := by simpa using hx
    rcases declared_ok hf with ⟨h3, h4⟩ | ⟨T, h3, h4⟩ | ⟨T, u, err, h3, h4, h5⟩
    · exact .inl ⟨.inr h3, h4⟩
    · exact .inr ⟨hx, T, h3, h4⟩
    · cases h5

/-- C78: a flow with a constant that cannot be converted is rejected: an input that is no connection object, unless in test
mode, or an output. `d` is the activity that the task refers to. -/
theorem C78_rejects {r : ActRep} {d : Desc} (hd : ∀ ref, findRef env r = .ok ref → env.get ref = some d)
    (hm : (∃ k v, r.input.get? k = some v ∧ Misfit env (d.inputs.get? k) v ∧ ¬ ConnectionObject v ∧ env.testMode = false) ∨
      ∃ k v, r.output.get? k = some v ∧ Misfit env (d.outputs.get? k) v) : ∃ x, createCfg env r = .error x := by
  cases hc : createCfg env r with
  | error x => exact ⟨x, rfl⟩
  | ok c =>
    have clash : ∀ {typ : Option String} {v w : Val}, Stored env typ v w → Misfit env typ v → False := by
      intro typ v w h1 ⟨hx, T, u, err, hT, hu⟩
      rcases h1 with ⟨h1 | h1, _⟩ | ⟨_, T', h1, h2⟩
      · rw [hx] at h1; cases h1
      · rw [hT] at h1; cases h1
      · rw [hT] at h1; cases h1; rw [hu] at h2; cases h2
    obtain ⟨_, _, _, hf, _⟩ := createCfg_ok hc
    have hd := hd _ hf
    rcases hm with ⟨k, v, hk, hmis, hnc, ht⟩ | ⟨k, v, hk, hmis⟩
    · obtain ⟨d', hd', h1, _⟩ := C78_inputs hc
      rw [hd] at hd'; cases hd'
      obtain ⟨w, _, h2 | ⟨_, ⟨_, h2, _⟩ | ⟨h2, _⟩⟩⟩ := h1 k v hk
      · exact (clash h2 hmis).elim
      · exact absurd h2 hnc
      · rw [ht] at h2; cases h2
    · obtain ⟨d', hd', h1⟩ := C78_outputs hc
      rw [hd] at hd'; cases hd'
      obtain ⟨m, w, _, _, h2⟩ := h1 k v hk
      exact (clash h2 hmis).elim

/-- The stored number. -/
def inputOf (c : Build ActCfg) (k : String) : Option Int :=
  match c with
  | .ok c => match c.inputs.get? k with
    | some (.int n) => some n
    | _ => none
  | .error _ => none

example : inputOf (createCfg httpEnv { ref := "http", input := [("n", .int 3)] }) "n" = some 3 := by decide
/-- The hypotheses of `C78_rejects`. -/
example : (∀ ref, findRef httpEnv { ref := "http", input := [("n", .str "x")] } = .ok ref →
      httpEnv.get ref = some { inputs := [("n", "integer")], reconfigurable := true, needsCleanup := true }) ∧
    ∃ k v, AMap.get? [("n", Val.str "x")] k = some v ∧
      Misfit httpEnv (AMap.get? [("n", "integer")] k) v ∧ ¬ ConnectionObject v ∧ httpEnv.testMode = false := by
  refine ⟨fun ref h => ?_, "n", .str "x", rfl, ⟨rfl, "integer", _, _, rfl, rfl⟩, (fun ⟨_, h, _⟩ => nomatch h), rfl⟩
  have e : findRef httpEnv { ref := "http", input := [("n", .str "x")] } = .ok "http" := rfl
  rw [e] at h; cases h; rfl

/-! ### C81 -/

/-- C81: a task that is accepted refers to a registered activity and fits it; the activity accepted the settings, and the mapper
accepted the inputs. -/
theorem C81_accepted {r : ActRep} {c : ActCfg} (h : createCfg env r = .ok c) : Refers env r c.ref ∧ ∃ d, env.get c.ref = some d ∧
    Acceptable env r c.ref d ∧ (d.factory = true → env.create c.ref c.settings = none) ∧ env.mapper c.inputs = none := by
  obtain ⟨d, ins, outs, h0, h1, h2, hf, h3, hm, h4, h5, h6, e⟩ := createCfg_iff.1 h
  exact ⟨findRef_iff.1 h0, d, h1, ⟨(resolveSettings_none _ _).1 h2, fun p hp => convertInput_iff.1 (convertAll_mem h3 p hp),
    fun p hp => convertOutput_iff.1 (convertAll_mem h4 p hp), checkSchemas_iff.1 h5, checkSchemas_iff.1 h6⟩, hf, by rw [e]; exact hm⟩

/-- C81: a task that refers to a registered activity and fits it is accepted, unless the activity or the mapper reject it. -/
theorem C81_accepts {r : ActRep} {ref : String} {d : Desc} (hr : Refers env r ref) (hd : env.get ref = some d) (ha : Acceptable env r ref d)
    (hc : ∀ m, env.create ref m = none) (hm : ∀ m, env.mapper m = none) : ∃ c, createCfg env r = .ok c ∧ c.ref = ref := by
  obtain ⟨ins, hi⟩ := convertAll_ok (f := convertInput env d) fun p hp => convertInput_iff.2 (ha.inputs p hp)
  obtain ⟨outs, ho⟩ := convertAll_ok (f := convertOutput env d) fun p hp => convertOutput_iff.2 (ha.outputs p hp)
  exact ⟨{ ref := ref, type := typeOf r ref, settings := (resolveSettings env ref r.settings []).1, inputs := ins
           outputs := if r.output = [] then none else some outs, inSchemas := r.inSchemas, outSchemas := r.outSchemas },
    createCfg_iff.2 ⟨d, ins, outs, findRef_iff.2 hr, hd, (resolveSettings_none _ _).2 ha.settings, fun _ => hc _, hi, hm _, ho,
      checkSchemas_iff.2 ha.inSchemas, checkSchemas_iff.2 ha.outSchemas, rfl⟩, rfl⟩

/-- C81: the settings of the activity are the given ones, resolved; type and schemas are the given ones. Without type, it is made
of the last parts of the reference, at most three. -/
theorem C81_settings {r : ActRep} {c : ActCfg} (hn : r.settings.keys.Nodup) (h : createCfg env r = .ok c) :
    (∀ n v, r.settings.get? n = some v → c.settings.get? n = some (env.resolve c.ref n v).1) ∧ (∀ n, r.settings.get? n = none → c.settings.get? n = none) ∧
    (r.type ≠ "" → c.type = r.type) ∧ (r.type = "" → ∃ before last, c.ref.splitOn "/" = before ++ last ∧ last.length ≤ 3 ∧
      (before ≠ [] → last.length = 3) ∧ c.type = (String.intercalate "." last).toLower) ∧
    c.inSchemas = r.inSchemas ∧ c.outSchemas = r.outSchemas := by
  obtain ⟨d, ins, outs, h0, h1, h2, hf, h3, hm, h4, h5, h6, e⟩ := createCfg_iff.1 h
  obtain ⟨_, h7, h8⟩ := resolveSettings_ok (env := env) (ref := c.ref) [] hn ((resolveSettings_none _ _).1 h2)
  refine ⟨fun n v hv => ?_, fun n hv => ?_, fun ht => ?_, fun ht => ?_, by rw [e], by rw [e]⟩
  · rw [e]; exact h7 n v hv
  · rw [e]; exact h8 n hv
  · rw [e]; exact if_neg ht
  · have e' : c.type = (String.intercalate "." (lastParts (c.ref.splitOn "/"))).toLower := by
      rw [e]; exact if_pos ht
    unfold lastParts at e'
    split at e'
    · refine ⟨_, _, (List.take_append_drop ((c.ref.splitOn "/").length - 3) _).symm, ?_, fun _ => ?_, e'⟩
      · rw [List.length_drop]; omega
      · rw [List.length_drop]; omega
    · rename_i hl
      exact ⟨[], c.ref.splitOn "/", rfl, Nat.le_of_lt (Nat.lt_of_not_le hl), fun h => absurd rfl h, e'⟩

/-- The hypotheses of `C81_accepts`: a reference, a number for a declared input and a setting. -/
example : Refers httpEnv { ref := "http", settings := [("url", .int 1)], input := [("n", .int 3)] } "http" ∧
    ∃ d, httpEnv.get "http" = some d ∧ Acceptable httpEnv { ref := "http", settings := [("url", .int 1)], input := [("n", .int 3)] } "http" d ∧
    (∀ m, httpEnv.create "http" m = none) ∧ ∀ m, httpEnv.mapper m = none := by
  refine ⟨.inl ⟨by decide, fun ⟨l, h⟩ => ?_, rfl⟩, _, rfl, ⟨fun p hp => ?_, fun p hp ⟨_, T, w, err, h1, h2⟩ => ?_, fun p hp => ?_, (fun m h => nomatch h),
    (fun m h => nomatch h)⟩, fun _ => rfl, fun _ => rfl⟩
  · have : "http".toList = ['h', 't', 't', 'p'] := by decide
    rw [this] at h; cases h
  · rw [List.mem_singleton.1 hp]; rfl
  · rw [List.mem_singleton.1 hp] at h1 h2
    cases h2
  · cases hp

/-- A task that refers to the activity by the deprecated type, or by an alias. -/
example : Refers { httpEnv with alias := fun a => if a = "#h" then some "http" else none } { type := "h" } "http" ∧
    Refers { httpEnv with alias := fun a => if a = "#h" then some "http" else none } { ref := "#h", type := "x" } "http" :=
  ⟨.inr (.inr ⟨rfl, by decide, rfl⟩), .inr (.inl ⟨⟨['h'], by decide⟩, rfl⟩)⟩

end Flow
