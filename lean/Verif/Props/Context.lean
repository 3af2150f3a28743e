import Verif.Spec.Context
import Verif.Props.Activity
import Verif.Props.Outputs
import Verif.Props.Accumulate
import Verif.Proofs.Verdicts

/-
C109: what an activity reads through its context, and which outputs it leaves behind.
-/

namespace Flow

open Spec Act

namespace Ctx

theorem call_append (t : Tsk) (l l' : List Op) :
    (call t (l ++ l')).1 = (call (call t l).1 l').1 ∧ (call t (l ++ l')).2 = (call t l).2 ++ (call (call t l).1 l').2 := by
  induction l generalizing t with
  | nil => exact ⟨rfl, rfl⟩
  | cons op l ih =>
    refine ⟨(ih _).1, ?_⟩
    show _ :: (call _ (l ++ l')).2 = _
    rw [(ih _).2]; rfl

theorem call_length (t : Tsk) (l : List Op) : (call t l).2.length = l.length := by
  induction l generalizing t with
  | nil => rfl
  | cons op l ih => show (call _ l).2.length + 1 = _; rw [ih]; rfl

theorem step_frame (t : Tsk) (op : Op) : (step t op).1.cfg = t.cfg ∧ (step t op).1.legacy = t.legacy ∧ (step t op).1.inputs = t.inputs := by
  cases op <;> exact ⟨rfl, rfl, rfl⟩

theorem call_frame (t : Tsk) (l : List Op) : (call t l).1.cfg = t.cfg ∧ (call t l).1.legacy = t.legacy ∧ (call t l).1.inputs = t.inputs := by
  induction l generalizing t with
  | nil => exact ⟨rfl, rfl, rfl⟩
  | cons op l ih =>
    obtain ⟨a, b, c⟩ := ih (step t op).1
    obtain ⟨a', b', c'⟩ := step_frame t op
    exact ⟨a.trans a', b.trans b', c.trans c'⟩

/-- Value of an output. -/
def out (t : Tsk) (n : String) : Option Val := t.outputs.bind (AMap.get? · n)

theorem out_untouched (t : Tsk) {l : List Op} {n : String} (h : Untouched l n) : out (call t l).1 n = out t n := by
  induction l generalizing t with
  | nil => rfl
  | cons op l ih =>
    refine (ih (step t op).1 fun q hq => h q (List.mem_cons_of_mem _ hq)).trans ?_
    have h1 := h op List.mem_cons_self
    cases op with
    | getInput => rfl
    | getOutput => rfl
    | getSetting => rfl
    | setObject m => exact absurd (Or.inr ⟨m, rfl⟩) h1
    | setOutput k v =>
      have hk : k ≠ n := fun e => h1 (Or.inl ⟨v, by rw [e]⟩)
      show AMap.get? ((t.outputs.getD []).set k v) n = _
      rw [AMap.get?_set_ne _ _ hk]
      unfold out
      cases t.outputs <;> rfl

theorem out_last (t : Tsk) {l : List Op} {n : String} {v : Val} (h : LastValue l n v) : out (call t l).1 n = some v := by
  obtain ⟨pre, op, post, rfl, h1, h2⟩ := h
  rw [(call_append _ _ _).1]
  show out (call (step _ op).1 post).1 n = _
  rw [out_untouched _ h2]
  rcases h1 with rfl | ⟨m, rfl, hm⟩
  · exact AMap.get?_set_self _ _ _
  · exact hm

theorem out_gone (t : Tsk) {l : List Op} {n : String} (h : LastGone l n) : out (call t l).1 n = none := by
  obtain ⟨pre, m, post, rfl, h1, h2⟩ := h
  rw [(call_append _ _ _).1]
  show out (call (step _ (.setObject m)).1 post).1 n = _
  rw [out_untouched _ h2]
  exact h1

/-- There are no other cases. -/
theorem cases (l : List Op) (n : String) : (∃ v, LastValue l n v) ∨ LastGone l n ∨ Untouched l n := by
  induction l with
  | nil => exact Or.inr (Or.inr fun _ h => nomatch h)
  | cons op l ih =>
    rcases ih with ⟨v, pre, q, post, rfl, h⟩ | ⟨pre, m, post, rfl, h⟩ | h
    · exact Or.inl ⟨v, op :: pre, q, post, rfl, h⟩
    · exact Or.inr (Or.inl ⟨op :: pre, m, post, rfl, h⟩)
    · have go : ∀ v, Sets op n v → ∃ v, LastValue (op :: l) n v := fun v hs => ⟨v, [], op, l, rfl, hs, h⟩
      have skip : ¬ Touches op n → Untouched (op :: l) n := fun ht q hq => by
        rcases List.mem_cons.1 hq with rfl | hq
        · exact ht
        · exact h q hq
      cases op with
      | getInput => exact Or.inr (Or.inr (skip fun ht => by rcases ht with ⟨_, ht⟩ | ⟨_, ht⟩ <;> cases ht))
      | getOutput => exact Or.inr (Or.inr (skip fun ht => by rcases ht with ⟨_, ht⟩ | ⟨_, ht⟩ <;> cases ht))
      | getSetting => exact Or.inr (Or.inr (skip fun ht => by rcases ht with ⟨_, ht⟩ | ⟨_, ht⟩ <;> cases ht))
      | setOutput k v =>
        by_cases hk : k = n
        · exact Or.inl (go v (Or.inl (by rw [hk])))
        · exact Or.inr (Or.inr (skip fun ht => by
            rcases ht with ⟨_, ht⟩ | ⟨_, ht⟩
            · exact hk (Op.setOutput.inj ht).1
            · cases ht))
      | setObject m =>
        cases hm : m.bind (AMap.get? · n) with
        | none => exact Or.inr (Or.inl ⟨[], m, l, rfl, hm, h⟩)
        | some v =>
          cases m with
          | none => cases hm
          | some m => exact Or.inl (go v (Or.inr ⟨m, rfl, hm⟩))

theorem key_inj {t n n' : String} (h : Out.key t n' = Out.key t n) : n' = n := by
  have h1 := congrArg String.toList h
  rw [key_toList, key_toList] at h1
  have h2 := List.append_cancel_left (List.append_cancel_left h1)
  exact String.toList_inj.1 (List.cons.inj h2).2

/-- The task instance when the activity is called once more. -/
def begun (s : St) (ins : AMap String Val) : Tsk := { s.tsk with inputs := some ins }

theorem play_tsk (id : TaskId) (declared : List String) (s : St) (c : AMap String Val × List Op) :
    (play id declared s c).tsk = (call (begun s c.1) c.2).1 ∧ (play id declared s c).log = s.log ++ (call (begun s c.1) c.2).2 := ⟨rfl, rfl⟩

/-- What `$activity[id].n` yields after an execution. -/
theorem read_play (id : TaskId) (declared : List String) (s : St) (c : AMap String Val × List Op) {n : String} (hn : n ≠ "") :
    Out.resolve (play id declared s c).attrs id n = (if n ∈ declared then out (play id declared s c).tsk n else none).or (Out.resolve s.attrs id n) := by
  unfold Out.resolve
  rw [if_pos hn, if_pos hn]
  unfold play stored
  dsimp only
  rw [update_own _ _ _ _ _ fun n' _ h => key_inj h]
  have hout : ∀ t : Tsk, AMap.get? (t.outputs.getD []) n = out t n := fun t => by unfold out; cases t.outputs <;> rfl
  rw [hout]

theorem plays_snoc (id : TaskId) (declared : List String) (s : St) (l : List (AMap String Val × List Op)) (c : AMap String Val × List Op) :
    plays id declared s (l ++ [c]) = play id declared (plays id declared s l) c := by
  unfold plays; rw [List.foldl_append]; rfl

/-- Everything the activity did with its context. -/
def history (l : List (AMap String Val × List Op)) : List Op := l.flatMap (·.2)

theorem history_snoc (l : List (AMap String Val × List Op)) (c : AMap String Val × List Op) : history (l ++ [c]) = history l ++ c.2 := by
  unfold history; simp

theorem call_outputs (l : List Op) : ∀ (a b : Tsk), a.outputs = b.outputs → (call a l).1.outputs = (call b l).1.outputs := by
  induction l with
  | nil => exact fun a b h => h
  | cons op l ih =>
    intro a b h
    refine ih _ _ ?_
    cases op with
    | setOutput n v => show some ((a.outputs.getD []).set n v) = some ((b.outputs.getD []).set n v); rw [h]
    | setObject m => rfl
    | getInput => exact h
    | getOutput => exact h
    | getSetting => exact h

/-- A task instance to which nothing has happened, with this activity, in a flow with these attributes. -/
def fresh (attrs : AMap String Val) (cfg : ActCfg) (legacy : Bool) : St := { attrs := attrs, tsk := { cfg := cfg, legacy := legacy } }

theorem plays_fresh (id : TaskId) (declared : List String) (attrs : AMap String Val) (cfg : ActCfg) (legacy : Bool) (l : List (AMap String Val × List Op)) :
    (plays id declared (fresh attrs cfg legacy) l).tsk.cfg = cfg ∧ (plays id declared (fresh attrs cfg legacy) l).tsk.legacy = legacy ∧
      (plays id declared (fresh attrs cfg legacy) l).tsk.outputs = (call { cfg := cfg } (history l)).1.outputs ∧
      (plays id declared (fresh attrs cfg legacy) l).log.length = (history l).length := by
  induction l using snoc_induct with
  | h0 => exact ⟨rfl, rfl, rfl, rfl⟩
  | h1 l c ih =>
    obtain ⟨a, b, h, hl⟩ := ih
    rw [plays_snoc, history_snoc, (call_append _ _ _).1, (play_tsk _ _ _ _).1, (play_tsk _ _ _ _).2]
    obtain ⟨a', b', _⟩ := call_frame (begun (plays id declared (fresh attrs cfg legacy) l) c.1) c.2
    refine ⟨a'.trans a, b'.trans b, call_outputs _ _ _ h, ?_⟩
    rw [List.length_append, List.length_append, hl, call_length]

/-- The answer to the use `op` of the context, which comes after `pre` in an execution with the inputs `ins` that follows the executions `l`. -/
theorem answer (id : TaskId) (declared : List String) (attrs : AMap String Val) (cfg : ActCfg) (legacy : Bool) (l : List (AMap String Val × List Op))
    (ins : AMap String Val) (pre post : List Op) (op : Op) :
    (plays id declared (fresh attrs cfg legacy) (l ++ [(ins, pre ++ op :: post)])).log[(history l ++ pre).length]? =
      some (step (call (begun (plays id declared (fresh attrs cfg legacy) l) ins) pre).1 op).2 := by
  rw [plays_snoc, (play_tsk _ _ _ _).2]
  have hl := (plays_fresh id declared attrs cfg legacy l).2.2.2
  rw [List.getElem?_append_right (by rw [hl, List.length_append]; omega), hl, List.length_append, (call_append _ _ _).2,
    List.getElem?_append_right (by rw [call_length]; omega), call_length,
    show (history l).length + pre.length - (history l).length - pre.length = 0 by omega]
  rfl

end Ctx

open Ctx

variable {id : TaskId} {declared : List String} {attrs : AMap String Val} {cfg : ActCfg} {legacy : Bool} {l : List (AMap String Val × List Op)}
  {ins : AMap String Val} {ops pre post : List Op} {n : String}

/-- C109, inputs: whatever the activity did before, it finds exactly the inputs mapped for this execution. The log has one answer for each use
of the context. -/
theorem C109_inputs : (plays id declared (fresh attrs cfg legacy) (l ++ [(ins, pre ++ .getInput n :: post)])).log[(history l ++ pre).length]? =
    some (some ((AMap.get? ins n).getD .null, true)) := by
  rw [answer]
  show some (some (((call _ pre).1.inputs.bind (AMap.get? · n)).getD .null, true)) = _
  rw [(call_frame _ pre).2.2]
  rfl

theorem legacy_answer (op : Op) (hl : legacy = true) : ∃ t : Tsk, t.legacy = true ∧ t.cfg = cfg ∧
    out t n = out (call { cfg := cfg } (history l ++ pre)).1 n ∧
    (plays id declared (fresh attrs cfg legacy) (l ++ [(ins, pre ++ op :: post)])).log[(history l ++ pre).length]? = some (step t op).2 := by
  obtain ⟨h1, h2, h3, _⟩ := plays_fresh id declared attrs cfg legacy l
  obtain ⟨f1, f2, _⟩ := call_frame (begun (plays id declared (fresh attrs cfg legacy) l) ins) pre
  refine ⟨_, f2.trans (h2.trans hl), f1.trans h1, ?_, answer _ _ _ _ _ _ _ _ _ _⟩
  unfold out
  rw [(call_append _ _ _).1, call_outputs pre (begun (plays id declared (fresh attrs cfg legacy) l) ins) _ h3]

/-- C109, legacy activities: for an output the activity finds the value it has given to it last, in this execution or an earlier one of the
same task instance. -/
theorem C109_legacy (hl : legacy = true) {v : Val} (hv : LastValue (history l ++ pre) n v) :
    (plays id declared (fresh attrs cfg legacy) (l ++ [(ins, pre ++ .getOutput n :: post)])).log[(history l ++ pre).length]? = some (some (v, true)) := by
  obtain ⟨t, h1, _, h3, h4⟩ := legacy_answer (id := id) (declared := declared) (attrs := attrs) (cfg := cfg) (l := l) (ins := ins) (pre := pre) (post := post)
    (n := n) (.getOutput n) hl
  rw [h4]
  show some (if t.legacy then some (t.getOutput n, true) else none) = _
  rw [if_pos h1]
  unfold Tsk.getOutput
  rw [show t.outputs.bind (AMap.get? · n) = some v from h3.trans (out_last _ hv)]

/-- C109, legacy activities: for an output to which it has given no value the activity finds the configured value, otherwise nil. -/
theorem C109_legacy_default (hl : legacy = true) (hv : ∀ v, ¬ LastValue (history l ++ pre) n v) :
    (plays id declared (fresh attrs cfg legacy) (l ++ [(ins, pre ++ .getOutput n :: post)])).log[(history l ++ pre).length]? =
      some (some (if cfg.ref = "" then .null else ((cfg.outputs.bind (AMap.get? · n)).getD .null), true)) := by
  obtain ⟨t, h1, h2, h3, h4⟩ := legacy_answer (id := id) (declared := declared) (attrs := attrs) (cfg := cfg) (l := l) (ins := ins) (pre := pre) (post := post)
    (n := n) (.getOutput n) hl
  rw [h4]
  show some (if t.legacy then some (t.getOutput n, true) else none) = _
  rw [if_pos h1]
  have hnone : out (call { cfg := cfg } (history l ++ pre)).1 n = none := by
    rcases Ctx.cases (history l ++ pre) n with ⟨v, h⟩ | h | h
    · exact absurd h (hv v)
    · exact out_gone _ h
    · rw [out_untouched _ h]; rfl
  unfold Tsk.getOutput
  rw [show t.outputs.bind (AMap.get? · n) = none from h3.trans hnone, h2]
  dsimp only
  by_cases he : cfg.ref = ""
  · rw [he]; rfl
  · rw [if_pos (Nat.pos_of_ne_zero fun h => he (by simpa using h)), if_neg he]; rfl

/-- C109, legacy activities: for a setting the activity finds the configured one. -/
theorem C109_setting (hl : legacy = true) :
    (plays id declared (fresh attrs cfg legacy) (l ++ [(ins, pre ++ .getSetting n :: post)])).log[(history l ++ pre).length]? =
      some (some ((AMap.get? cfg.settings n).getD .null, (AMap.get? cfg.settings n).isSome)) := by
  obtain ⟨t, h1, h2, _, h4⟩ := legacy_answer (id := id) (declared := declared) (attrs := attrs) (cfg := cfg) (l := l) (ins := ins) (pre := pre) (post := post)
    (n := n) (.getSetting n) hl
  rw [h4]
  show some (if t.legacy then some ((t.cfg.getSetting n).getD .null, (t.cfg.getSetting n).isSome) else none) = _
  rw [if_pos h1, h2]
  rfl

/-- C109, legacy activities of a flow that was accepted: what the flow gives for an output is found converted to the declared type, an
expression as it stands (see `C109_negation_expression`). -/
theorem C109_configured {env : ActEnv} {r : ActRep} {v : Val} (hc : createCfg env r = .ok cfg) (hr : cfg.ref ≠ "") (hv : r.output.get? n = some v)
    (hl : legacy = true) (hno : ∀ v, ¬ LastValue (history l ++ pre) n v) : ∃ d w, env.get cfg.ref = some d ∧ Stored env (d.outputs.get? n) v w ∧
      (plays id declared (fresh attrs cfg legacy) (l ++ [(ins, pre ++ .getOutput n :: post)])).log[(history l ++ pre).length]? = some (some (w, true)) := by
  obtain ⟨d, hd, h⟩ := C78_outputs hc
  obtain ⟨m, w, h1, h2, h3⟩ := h n v hv
  refine ⟨d, w, hd, h3, ?_⟩
  rw [C109_legacy_default hl hno, if_neg hr, h1]
  show some (some ((AMap.get? m n).getD .null, true)) = _
  rw [h2]; rfl

/-- C109, outputs: after an execution that has given a declared output a value, `$activity[id].n` yields the last value it has given.

Partial: for an output to which the execution has given no value see `C109_negation_kept` and `C109_negation_configured`. -/
theorem C109_outputs_partial (hn : n ≠ "") (hd : n ∈ declared) {v : Val} (h : LastValue ops n v) :
    Out.resolve (plays id declared (fresh attrs cfg legacy) (l ++ [(ins, ops)])).attrs id n = some v := by
  rw [plays_snoc, read_play _ _ _ _ hn, if_pos hd, (play_tsk _ _ _ _).1, out_last _ h]
  rfl

/-- C109, outputs: an output that is not declared by the activity is not stored, whatever the activity does. -/
theorem C109_undeclared (hn : n ≠ "") (hd : n ∉ declared) :
    Out.resolve (plays id declared (fresh attrs cfg legacy) l).attrs id n = Out.resolve attrs id n := by
  induction l using snoc_induct with
  | h0 => rfl
  | h1 l c ih => rw [plays_snoc, read_play _ _ _ _ hn, if_neg hd, ih]; rfl

/-- After at least one execution the outputs of the task instance are those that can be read. -/
theorem readable (hn : n ≠ "") (hd : n ∈ declared) (hl : l ≠ []) {v : Val} (h : out (plays id declared (fresh attrs cfg legacy) l).tsk n = some v) :
    Out.resolve (plays id declared (fresh attrs cfg legacy) l).attrs id n = some v := by
  induction l using snoc_induct with
  | h0 => exact absurd rfl hl
  | h1 l c _ =>
    rw [plays_snoc] at h ⊢
    rw [read_play _ _ _ _ hn, if_pos hd, h]
    rfl

/-- C109 fails for an output to which the last execution has given no value, always: `$activity[id].n` yields what it yielded before this
execution, be it the value of an earlier iteration or attempt, and whatever the flow gives for this output. -/
theorem C109_negation_kept (hn : n ≠ "") (h : ∀ v, ¬ LastValue ops n v) :
    Out.resolve (plays id declared (fresh attrs cfg legacy) (l ++ [(ins, ops)])).attrs id n =
      Out.resolve (plays id declared (fresh attrs cfg legacy) l).attrs id n := by
  rw [plays_snoc, read_play _ _ _ _ hn, (play_tsk _ _ _ _).1]
  by_cases hd : n ∈ declared
  · rw [if_pos hd]
    rcases Ctx.cases ops n with ⟨v, hv⟩ | hg | hu
    · exact absurd hv (h v)
    · rw [out_gone _ hg]; rfl
    · rw [out_untouched _ hu]
      show (out (plays id declared (fresh attrs cfg legacy) l).tsk n).or _ = _
      cases ho : out (plays id declared (fresh attrs cfg legacy) l).tsk n with
      | none => rfl
      | some v =>
        have hl : l ≠ [] := fun e => by rw [e] at ho; cases ho
        rw [readable hn hd hl ho]
        rfl
  · rw [if_neg hd]; rfl

/-- C109 fails for outputs configured in the flow: if the activity gives them no value, they cannot be read after the task is finished. -/
theorem C109_negation_configured (hn : n ≠ "") (hs : ∀ c ∈ l, ∀ v, ¬ LastValue c.2 n v) (ha : Out.resolve attrs id n = none) :
    Out.resolve (plays id declared (fresh attrs cfg legacy) l).attrs id n = none := by
  induction l using snoc_induct with
  | h0 => exact ha
  | h1 l c ih =>
    rw [C109_negation_kept hn (hs c (List.mem_append_right _ List.mem_cons_self))]
    exact ih fun c' hc' => hs c' (List.mem_append_left _ hc')

/-! The examples: a legacy activity with the outputs x and y, for which the flow gives the constant 7 and an expression. -/

def legacyCfg : ActCfg := { ref := "log", type := "log", settings := [("level", .int 4)], outputs := some [("x", .int 7), ("y", .str "=$flow.in")] }

/-- The first execution gives x the value 1, the second one none. -/
def twice : List (AMap String Val × List Op) :=
  [([("a", .int 2), ("b", .int 9)], [.getInput "a", .getOutput "x", .setOutput "x" (.int 1)]),
   ([("a", .int 3)], [.getInput "a", .getInput "b", .getOutput "x", .getSetting "level", .getSetting "other"])]

def readBack (l : List (AMap String Val × List Op)) (n : String) : Option Int :=
  (Out.resolve (plays "A" ["x", "y"] (fresh [] legacyCfg true) l).attrs "A" n).bind fun v => match v with | .int k => some k | _ => none

-- the value of the first execution is read after the second one
example : readBack twice "x" = some 1 ∧ readBack [twice[1]] "x" = none ∧ readBack [twice[0]] "x" = some 1 := by decide +kernel
-- the answers
example : (plays "A" ["x", "y"] (fresh [] legacyCfg true) twice).log =
    [some (.int 2, true), some (.int 7, true), none, some (.int 3, true), some (.null, true), some (.int 1, true), some (.int 4, true), some (.null, false)] := rfl
example : LastValue [.getInput "a", .setOutput "x" (.int 1)] "x" (.int 1) := ⟨[_], _, [], rfl, .inl rfl, fun _ h => nomatch h⟩
example : ∀ v, ¬ LastValue [.getInput "a"] "x" v := by
  rintro v ⟨pre, op, post, h, h1, _⟩
  have : op ∈ [Op.getInput "a"] := by rw [h]; simp
  rw [List.mem_singleton.1 this] at h1
  rcases h1 with h1 | ⟨_, h1, _⟩ <;> cases h1

/-- C109 fails for expressions: the legacy activity finds the text of the expression given for its output, not its value. -/
theorem C109_negation_expression :
    (plays "A" ["x", "y"] (fresh [] legacyCfg true) [([], [.getOutput "y"])]).log = [some (.str "=$flow.in", true)] := rfl

/-- A do-while task, whose activity gives n a value in the first iteration only. -/
def onceEnv : Env :=
  { collectingEnv with
    act := fun e i o => if ((e.obj? i o).bind (·.dwIndex)).getD 0 = 0 then { outputs := some (some [("n", .int 5)]) } else {} }

/-- C109 fails in a loop, in the execution of a flow: the task accumulates its outputs; its activity gives n a value in the first iteration
only, but the entries of all iterations have it. -/
theorem C109_negation_loop :
    collected (Eng.run onceEnv (Eng.init onceEnv "1" "u" (collecting "A" "B") []) 20) "_A.A" = some [5, 5, 5] := by decide +kernel

end Flow
