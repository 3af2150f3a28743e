import Verif.Proofs.Record
import Verif.Proofs.Step
import Verif.Spec.Plain

/-
The recorded steps: consecutive identifiers (C34) and completeness of the change record (C35).

`recordedNew css` are the steps recorded for a new flow if a step is recorded after each group of tracker calls in `css`;
`CallsOf e css` says that `css` are the calls made on the way to the engine state `e`, grouped in any way.
-/

namespace Flow
open Spec

/-! ### C34 -/

theorem steps_id (t : Tracker) (css : List (List Call)) (n : Nat) (s : StepRec) (h : (t.steps css)[n + 1]? = some s) :
    s.id = t.stepCtr + n + 1 := by
  induction css generalizing t n with
  | nil => simp [Tracker.steps] at h
  | cons cs css ih =>
    rw [Tracker.steps, List.getElem?_cons_succ] at h
    have hc : (cs.foldl Tracker.call t).stepCtr = t.stepCtr := by
      clear h ih
      induction cs generalizing t with
      | nil => rfl
      | cons c cs ih => rw [List.foldl_cons, ih]; rfl
    cases n with
    | zero =>
      cases css with
      | nil => simp [Tracker.steps] at h
      | cons ds css =>
        simp only [Tracker.steps, List.getElem?_cons_zero, Option.some.injEq] at h
        subst h
        show (ds.foldl Tracker.call _).cur.id = _
        have : ∀ (t : Tracker), (ds.foldl Tracker.call t).cur.id = t.cur.id := by
          clear ih
          induction ds with
          | nil => intro t; rfl
          | cons c cs ih =>
            intro t
            rw [List.foldl_cons, ih]
            cases c <;> rfl
        rw [this]
        simp only [Tracker.extract]
        rw [hc]; simp
    | succ n =>
      rw [ih _ n h]
      simp only [Tracker.extract]
      rw [hc]; omega

theorem steps_id0 (k : Int) (css : List (List Call)) (s : StepRec) (h : ((Tracker.new k).steps css)[0]? = some s) : s.id = 0 := by
  cases css with
  | nil => simp [Tracker.steps] at h
  | cons ds css =>
    simp only [Tracker.steps, List.getElem?_cons_zero, Option.some.injEq] at h
    subst h
    show (ds.foldl Tracker.call _).cur.id = _
    have : ∀ (t : Tracker), (ds.foldl Tracker.call t).cur.id = t.cur.id := by
      induction ds with
      | nil => intro t; rfl
      | cons c cs ih =>
        intro t
        rw [List.foldl_cons, ih]
        cases c <;> rfl
    rw [this]; rfl

theorem steps_length (t : Tracker) (css : List (List Call)) : (t.steps css).length = css.length := by
  induction css generalizing t with
  | nil => rfl
  | cons cs css ih => simp [Tracker.steps, ih]

/-- C34: one step is recorded per recording, and the steps of a new flow are numbered 0, 1, 2, … whatever happened in
between. -/
theorem C34_new (css : List (List Call)) :
    (recordedNew css).map StepRec.id = (List.range css.length).map Int.ofNat := by
  apply List.ext_getElem?
  intro n
  rw [List.getElem?_map, List.getElem?_map]
  by_cases hn : n < css.length
  · have h1 : n < (recordedNew css).length := by unfold recordedNew; rw [steps_length]; exact hn
    rw [List.getElem?_eq_getElem h1, List.getElem?_range hn]
    have h2 := List.getElem?_eq_getElem h1
    cases n with
    | zero => simp [steps_id0 0 css _ h2]
    | succ n =>
      have := steps_id (Tracker.new 0) css n _ h2
      simp only [Option.map_some, Option.some.injEq]
      rw [this]; simp [Tracker.new]
  · rw [List.getElem?_eq_none (by unfold recordedNew; rw [steps_length]; omega), List.getElem?_eq_none (by simp; omega)]
    rfl

/-- C34: a flow restarted with the positive step identifier `k` records the steps `k`, `k + 1`, …; the first group of
calls, made by the restart itself, is not recorded. -/
theorem C34_restart_partial {k : Int} (hk : 0 < k) (cs : List Call) (css : List (List Call)) :
    (recordedRestart k (cs :: css)).map StepRec.id = (List.range css.length).map (fun (n : Nat) => k + n) := by
  unfold recordedRestart
  rw [if_neg (by omega)]
  apply List.ext_getElem?
  intro n
  rw [List.getElem?_map, List.getElem?_map, List.getElem?_drop]
  by_cases hn : n < css.length
  · have h1 : 1 + n < ((Tracker.new (k - 1)).steps (cs :: css)).length := by rw [steps_length]; simp; omega
    rw [List.getElem?_eq_getElem h1, List.getElem?_range hn]
    have h2 := List.getElem?_eq_getElem h1
    have := steps_id (Tracker.new (k - 1)) (cs :: css) n _ ((congrArg _ (Nat.add_comm n 1)).trans h2)
    simp only [Option.map_some, Option.some.injEq]
    rw [this]; simp only [Tracker.new]; omega
  · rw [List.getElem?_eq_none (by rw [steps_length]; simp; omega), List.getElem?_eq_none (by simp; omega)]
    rfl

/-- C34 fails for a restart with step identifier 0: the identifier 0 is recorded twice. -/
theorem C34_negation (cs ds : List Call) (css : List (List Call)) :
    ∃ l, (recordedRestart 0 (cs :: ds :: css)).map StepRec.id = 0 :: 0 :: l := by
  have h1 := steps_id0 (0 - 1) (cs :: ds :: css) _ rfl
  have h2 := steps_id (Tracker.new (0 - 1)) (cs :: ds :: css) 0 _ rfl
  unfold recordedRestart
  rw [if_pos (by omega)]
  simp only [Tracker.steps, List.map_cons, List.cons.injEq]
  refine ⟨_, ?_, ?_, rfl⟩
  · exact h1
  · rw [h2]; simp [Tracker.new]

example : (recordedNew [[.flowCreated "u" .notStarted, .setStatus 0 .active], [.itemRemoved 1 "A"], []]).map StepRec.id = [0, 1, 2] := by decide
example : (recordedRestart 5 [[.flowCreated "u" .notStarted], [.itemRemoved 1 "A"], []]).map StepRec.id = [5, 6] := by decide

/-! ### C35 -/

theorem calls_of {A : Type} {sid : Nat} {f : Call → Option A} (hf : ∀ c, concerns sid c = false → f c = none) {css : List (List Call)}
    {c : Call} {l : List Call} (h : css.flatten.filter (concerns sid) = c :: l) {x : A} (hc : f c = some x) :
    css.flatten.filterMap f = x :: l.filterMap f := by
  rw [filterMap_concerns hf, h, List.filterMap_cons, hc]

theorem fresh_trace {d : Def} {tr : List Ev} (h : TraceOK d tr) {sid : Nat} {uri : String} {c : Call}
    (hc : c ∈ tr.reverse.filterMap (callOf sid uri)) : Fresh c := by
  obtain ⟨ev, hev, hop⟩ := List.mem_filterMap.1 hc
  rw [List.mem_reverse] at hev
  cases ev with
  | flowStatus s =>
    simp [callOf] at hop
    obtain ⟨post, pre, hs⟩ := List.append_of_mem hev
    have h2 : s ≠ .notStarted := h.at hs
    rw [← hop]; exact h2
  | _ => simp [callOf] at hop <;> (rw [← hop]; trivial)

theorem fresh_announce {sid : Nat} {uri : String} {c : Call} (h : Announces sid uri c) : Fresh c := by
  rcases h with ⟨_, h2⟩ | ⟨host, h2⟩ <;> subst h2 <;> rfl

/-- C35, flow status: in every reachable state and however the changes are grouped into steps, replaying the recorded
steps gives the status of each flow instance. -/
theorem C35_status {env : Env} {e : Eng} (hr : Reachable env e) {css : List (List Call)} (hc : CallsOf e css) {i : Nat} {I : Inst}
    (hI : e.insts[i]? = some I) : (replay i (recordedNew css)).status = I.status := by
  have hok := (Eng.engOK_reachable hr).ok i I hI
  obtain ⟨c, h1, h2⟩ := hc.1 i I hI
  unfold replay recordedNew
  rw [replay_status rfl, calls_of (fun c => opS_none) h2 (opS_announce h1), hok.mirror.flow, ← direct_status i I.uri]
  · rfl
  · intro c' h3 h4
    have h5 : c' ∈ css.flatten.filter (concerns i) := List.mem_filter.2 ⟨h3, h4⟩
    rw [h2] at h5
    rcases List.mem_cons.1 h5 with h6 | h6
    · rw [h6]; exact fresh_announce h1
    · exact fresh_trace hok.trace h6

/-- C35, pending work: in every reachable state, replaying the recorded queue changes gives exactly the pending work items,
each with its task. -/
theorem C35_queue {env : Env} {e : Eng} (hr : Reachable env e) {css : List (List Call)} (hc : CallsOf e css) (id : Nat) (t : TaskId) :
    replayQueue (recordedNew css) id = some t ↔ ∃ w ∈ e.queue, w.id = id ∧ taskOf e w.inst w.obj = t := by
  have hit : ∀ w, e.itemTask w = taskOf e w.inst w.obj := fun w => by
    unfold Eng.itemTask taskOf Eng.obj?
    cases e.insts[w.inst]? with
    | none => rfl
    | some I =>
      simp only [Option.bind_some]
      cases I.objs[w.obj]? <;> rfl
  simp only [← hit]
  have hok := Eng.engOK_reachable hr
  have h1 : css.flatten.filterMap (opQ id) = (e.qlog.reverse.map e.queueCall).filterMap (opQ id) := by
    rw [filterMap_queue, hc.2]
  unfold replayQueue recordedNew
  rw [replay_queue rfl id none css (by rw [h1]; exact once_queue e id hok.qlog), h1, direct_queue, lastItem_iff _ hok.qlog]
  constructor
  · rintro ⟨w, h2, h3, h4⟩; exact ⟨w, (hok.qmem w).2 ⟨h2, h3⟩, h4⟩
  · rintro ⟨w, h2, h4⟩; exact ⟨w, ((hok.qmem w).1 h2).1, ((hok.qmem w).1 h2).2, h4⟩

/-- What the record of the current step says about an attribute. -/
theorem call_attr (sid : Nat) (n : String) (s : StepRec) (c : Call) (old : Option Val) :
    applyAttr n old ((s.call c).flows.get? sid) = reported sid n (applyAttr n old (s.flows.get? sid)) c := by
  have hm : ∀ i (f : FlowChg → FlowChg), (∀ x, (f x).attrs = x.attrs ∧ (f x).newFlow = x.newFlow) →
      applyAttr n old ((s.modFlow i f).flows.get? sid) = applyAttr n old (s.flows.get? sid) := by
    intro i f hf
    unfold StepRec.modFlow
    rw [AMap.get?_set]
    by_cases h : i = sid
    · subst h
      rw [if_pos rfl]
      cases hg : s.flows.get? i with
      | none => simp [applyAttr, hf]
      | some c => simp [applyAttr, hf]
    · rw [if_neg h]
  cases c with
  | flowCreated uri st =>
    simp only [StepRec.call, reported]
    rw [AMap.get?_set]
    by_cases h : sid = 0
    · subst h; simp [applyAttr]
    · rw [if_neg (fun h' => h h'.symm), if_neg h]
  | subflowCreated i uri host st =>
    simp only [StepRec.call, reported]
    rw [AMap.get?_set]
    by_cases h : i = sid
    · subst h; simp [applyAttr]
    · rw [if_neg h, if_neg h]
  | attrChange i m v =>
    simp only [StepRec.call, reported, StepRec.modFlow]
    rw [AMap.get?_set]
    by_cases h : i = sid
    · subst h
      rw [if_pos rfl]
      by_cases h2 : m = n
      · subst h2; simp [applyAttr, AMap.get?_set]
      · cases hg : s.flows.get? i <;> simp [applyAttr, AMap.get?_set, h2]
    · rw [if_neg h]; simp [h]
  | setStatus i st => exact hm i _ (fun _ => ⟨rfl, rfl⟩)
  | taskAdded i uri t st => exact hm i _ (fun _ => ⟨rfl, rfl⟩)
  | taskUpdated i uri t st => exact hm i _ (fun _ => ⟨rfl, rfl⟩)
  | taskRemoved i t => exact hm i _ (fun _ => ⟨rfl, rfl⟩)
  | linkAdded i l st => exact hm i _ (fun _ => ⟨rfl, rfl⟩)
  | linkUpdated i l st => exact hm i _ (fun _ => ⟨rfl, rfl⟩)
  | linkRemoved i l => exact hm i _ (fun _ => ⟨rfl, rfl⟩)
  | itemAdded id t => rfl
  | itemRemoved id t => rfl

/-- C35, attributes: replaying the recorded steps gives for each attribute of each flow instance the value that was reported
last since the instance was created, however the reports are grouped into steps. -/
theorem C35_attrs (css : List (List Call)) (sid : Nat) (n : String) :
    replayAttr sid (recordedNew css) n = css.flatten.foldl (reported sid n) none := by
  have h1 : ∀ (cs : List Call) (t : Tracker) (old : Option Val),
      applyAttr n old ((cs.foldl Tracker.call t).cur.flows.get? sid) =
        cs.foldl (reported sid n) (applyAttr n old (t.cur.flows.get? sid)) := by
    intro cs
    induction cs with
    | nil => intro t old; rfl
    | cons c cs ih =>
      intro t old
      rw [List.foldl_cons, List.foldl_cons, ih]
      congr 1
      exact call_attr sid n t.cur c old
  have h2 : ∀ (css : List (List Call)) (t : Tracker) (old : Option Val), t.cur.flows = [] →
      (t.steps css).foldl (fun v s => applyAttr n v (s.flows.get? sid)) old = css.flatten.foldl (reported sid n) old := by
    intro css
    induction css with
    | nil => intro t old _; rfl
    | cons cs css ih =>
      intro t old ht
      rw [Tracker.steps, List.foldl_cons, List.flatten_cons, List.foldl_append]
      have h3 := h1 cs t old
      rw [ht] at h3
      have h4 : applyAttr n old ((cs.foldl Tracker.call t).extract.1.flows.get? sid) = cs.foldl (reported sid n) old := h3
      rw [h4]
      exact ih _ _ rfl
  exact h2 css (Tracker.new 0) none rfl

example : ((replayAttr 0 (recordedNew [[.flowCreated "u" .notStarted, .attrChange 0 "x" (.int 1), .attrChange 0 "y" (.int 2)],
    [.attrChange 0 "x" (.int 3), .attrChange 1 "x" (.int 4)]]) "x").map (fun v => match v with | .int n => n | _ => 0)) = some 3 := by decide

/-! ### The flow a change belongs to -/

/-- A call that names the flow instance `sid` gives the address `u`. -/
def NamesFlow (sid : Nat) (u : String) : Call → Prop
  | .flowCreated uri _ => sid = 0 → uri = u
  | .subflowCreated i uri _ _ => i = sid → uri = u
  | .taskAdded i uri _ _ => i = sid → uri = u
  | .taskUpdated i uri _ _ => i = sid → uri = u
  | _ => True

theorem modFlow_same (s : StepRec) (i : Nat) (f : FlowChg → FlowChg) : (s.modFlow i f).flows.get? i = some (f ((s.flows.get? i).getD {})) := by
  unfold StepRec.modFlow; rw [AMap.get?_set_self]

theorem modFlow_other (s : StepRec) {i sid : Nat} (h : i ≠ sid) (f : FlowChg → FlowChg) : (s.modFlow i f).flows.get? sid = s.flows.get? sid := by
  unfold StepRec.modFlow; rw [AMap.get?_set_ne _ _ h]

theorem call_uri {sid : Nat} {u : String} {s : StepRec} (h : ∀ c, s.flows.get? sid = some c → c.uri = "" ∨ c.uri = u) {x : Call}
    (hx : NamesFlow sid u x) :
    (∀ c, (s.call x).flows.get? sid = some c → c.uri = "" ∨ c.uri = u) ∧
      ((∃ c, s.flows.get? sid = some c ∧ c.uri = u) ∨ introduces sid x = true → ∃ c, (s.call x).flows.get? sid = some c ∧ c.uri = u) := by
  have h0 : ((s.flows.get? sid).getD {}).uri = "" ∨ ((s.flows.get? sid).getD {}).uri = u := by
    cases hc : s.flows.get? sid with
    | none => exact .inl rfl
    | some c => exact h c hc
  have hset : ∀ (i : Nat) (c : FlowChg), (i = sid → c.uri = u) →
      (∀ d, (s.flows.set i c).get? sid = some d → d.uri = "" ∨ d.uri = u) ∧
      ((∃ d, s.flows.get? sid = some d ∧ d.uri = u) ∨ decide (i = sid) = true → ∃ d, (s.flows.set i c).get? sid = some d ∧ d.uri = u) := by
    intro i c hi
    by_cases he : i = sid
    · subst he
      rw [AMap.get?_set_self]
      exact ⟨fun d hd => by cases hd; exact .inr (hi rfl), fun _ => ⟨c, rfl, hi rfl⟩⟩
    · rw [AMap.get?_set_ne _ _ he]
      exact ⟨h, fun hx => hx.elim id (fun hx => absurd (of_decide_eq_true hx) he)⟩
  have hmod : ∀ (i : Nat) (f : FlowChg → FlowChg), (∀ c, (f c).uri = c.uri) →
      (∀ d, (s.modFlow i f).flows.get? sid = some d → d.uri = "" ∨ d.uri = u) ∧
      ((∃ d, s.flows.get? sid = some d ∧ d.uri = u) ∨ false = true → ∃ d, (s.modFlow i f).flows.get? sid = some d ∧ d.uri = u) := by
    intro i f hf
    by_cases he : i = sid
    · subst he
      rw [modFlow_same]
      refine ⟨fun d hd => by cases hd; rw [hf]; exact h0, ?_⟩
      rintro (⟨d, hd, hu⟩ | hx)
      · exact ⟨_, rfl, by rw [hf, hd]; exact hu⟩
      · cases hx
    · rw [modFlow_other _ he]
      exact ⟨h, fun hx => hx.elim id (fun hx => nomatch hx)⟩
  have htask : ∀ (i : Nat) (uri : String) (t : TaskId) (g : KeyChg TaskStatus → KeyChg TaskStatus), (i = sid → uri = u) →
      (∀ d, (s.modFlow i (fun c => c.modTask uri t g)).flows.get? sid = some d → d.uri = "" ∨ d.uri = u) ∧
      ((∃ d, s.flows.get? sid = some d ∧ d.uri = u) ∨ decide (i = sid) = true →
        ∃ d, (s.modFlow i (fun c => c.modTask uri t g)).flows.get? sid = some d ∧ d.uri = u) := by
    intro i uri t g hi
    by_cases he : i = sid
    · subst he
      have hu : (((s.flows.get? i).getD {}).modTask uri t g).uri = u := by
        show (if ((s.flows.get? i).getD {}).uri = "" then uri else ((s.flows.get? i).getD {}).uri) = u
        by_cases hc : ((s.flows.get? i).getD {}).uri = ""
        · rw [if_pos hc]; exact hi rfl
        · rw [if_neg hc]; exact h0.resolve_left hc
      rw [modFlow_same]
      exact ⟨fun d hd => by cases hd; exact .inr hu, fun _ => ⟨_, rfl, hu⟩⟩
    · rw [modFlow_other _ he]
      exact ⟨h, fun hx => hx.elim id (fun hx => absurd (of_decide_eq_true hx) he)⟩
  cases x with
  | flowCreated uri st =>
    have := hset 0 { newFlow := true, uri := uri, status := st } (fun h => hx h.symm)
    refine ⟨this.1, fun hy => this.2 (hy.imp id (fun hz => ?_))⟩
    have hz : sid = 0 := by simpa [introduces] using hz
    exact decide_eq_true hz.symm
  | subflowCreated i uri host st => exact hset i _ hx
  | setStatus i st => exact hmod i _ (fun _ => rfl)
  | attrChange i n v => exact hmod i _ (fun _ => rfl)
  | taskAdded i uri t st => exact htask i uri t _ hx
  | taskUpdated i uri t st => exact htask i uri t _ hx
  | taskRemoved i t =>
    refine hmod i _ (fun c => ?_)
    show (if c.uri = "" then "" else c.uri) = c.uri
    by_cases hc : c.uri = ""
    · rw [if_pos hc, hc]
    · rw [if_neg hc]
  | linkAdded i l st => exact hmod i _ (fun _ => rfl)
  | linkUpdated i l st => exact hmod i _ (fun _ => rfl)
  | linkRemoved i l => exact hmod i _ (fun _ => rfl)
  | itemAdded k t => exact ⟨h, fun hx => hx.elim id (fun hx => nomatch hx)⟩
  | itemRemoved k t => exact ⟨h, fun hx => hx.elim id (fun hx => nomatch hx)⟩

theorem calls_uri {sid : Nat} {u : String} (cs : List Call) (t : Tracker) (h : ∀ c, t.cur.flows.get? sid = some c → c.uri = "" ∨ c.uri = u)
    (hx : ∀ x ∈ cs, NamesFlow sid u x) :
    (∀ c, (cs.foldl Tracker.call t).cur.flows.get? sid = some c → c.uri = "" ∨ c.uri = u) ∧
      ((∃ c, t.cur.flows.get? sid = some c ∧ c.uri = u) ∨ (∃ x ∈ cs, introduces sid x = true) →
        ∃ c, (cs.foldl Tracker.call t).cur.flows.get? sid = some c ∧ c.uri = u) := by
  induction cs generalizing t with
  | nil => exact ⟨h, fun hy => hy.elim id (fun ⟨_, hm, _⟩ => nomatch hm)⟩
  | cons x cs ih =>
    obtain ⟨h1, h2⟩ := call_uri h (hx x (List.mem_cons_self ..))
    obtain ⟨h3, h4⟩ := ih (t.call x) h1 (fun y hy => hx y (List.mem_cons_of_mem _ hy))
    refine ⟨h3, fun hy => h4 ?_⟩
    rcases hy with hy | ⟨y, hm, hy⟩
    · exact .inl (h2 (.inl hy))
    · rcases List.mem_cons.1 hm with rfl | hm
      · exact .inl (h2 (.inr hy))
      · exact .inr ⟨y, hm, hy⟩

theorem steps_uri {sid : Nat} {u : String} (css : List (List Call)) (t : Tracker) (h0 : t.cur.flows = [])
    (hx : ∀ x ∈ css.flatten, NamesFlow sid u x) {n : Nat} {cs : List Call} {s : StepRec} (hcs : css[n]? = some cs) (hs : (t.steps css)[n]? = some s) :
    (∀ c, s.flows.get? sid = some c → c.uri = "" ∨ c.uri = u) ∧
      ((∃ x ∈ cs, introduces sid x = true) → ∃ c, s.flows.get? sid = some c ∧ c.uri = u) := by
  induction css generalizing t n with
  | nil => cases hcs
  | cons ds css ih =>
    rw [Tracker.steps] at hs
    cases n with
    | zero =>
      cases hcs
      cases hs
      obtain ⟨h1, h2⟩ := calls_uri (sid := sid) (u := u) cs t (fun c hc => by rw [h0] at hc; cases hc)
        (fun x hm => hx x (List.mem_flatten.2 ⟨cs, List.mem_cons_self .., hm⟩))
      exact ⟨h1, fun hy => h2 (.inr hy)⟩
    | succ n => exact ih _ rfl (fun x hm => hx x (by rw [List.flatten_cons]; exact List.mem_append_right _ hm)) hcs hs

/-- C35, addresses: however the changes are grouped into steps, a recorded change of a flow instance gives the address of its flow
or none, and it gives the address if the step announces the flow instance or contains a new task or a task with a new status. -/
theorem C35_uri {e : Eng} {css : List (List Call)} (hc : CallsOf e css) {i : Nat} {I : Inst}
    (hI : e.insts[i]? = some I) {n : Nat} {cs : List Call} {s : StepRec} (hcs : css[n]? = some cs) (hs : (recordedNew css)[n]? = some s) :
    (∀ c, s.flows.get? i = some c → c.uri = "" ∨ c.uri = I.uri) ∧
      ((∃ x ∈ cs, introduces i x = true) → ∃ c, s.flows.get? i = some c ∧ c.uri = I.uri) := by
  refine steps_uri css (Tracker.new 0) rfl (fun x hx => ?_) hcs hs
  obtain ⟨a, h1, h2⟩ := hc.1 i I hI
  by_cases hcon : concerns i x = true
  · have hm : x ∈ a :: I.trace.reverse.filterMap (callOf i I.uri) := h2 ▸ List.mem_filter.2 ⟨hx, hcon⟩
    rcases List.mem_cons.1 hm with rfl | hm
    · rcases h1 with ⟨rfl, rfl⟩ | ⟨host, rfl⟩
      · exact fun _ => rfl
      · exact fun _ => rfl
    · obtain ⟨ev, _, hop⟩ := List.mem_filterMap.1 hm
      cases ev <;> simp [callOf] at hop <;> subst hop <;> first | trivial | exact fun _ => rfl
  · cases x with
    | flowCreated uri st => exact fun h => absurd (by simpa [concerns] using h) hcon
    | subflowCreated j uri host st => exact fun h => absurd (by simpa [concerns] using h) hcon
    | taskAdded j uri t st => exact fun h => absurd (by simpa [concerns] using h) hcon
    | taskUpdated j uri t st => exact fun h => absurd (by simpa [concerns] using h) hcon
    | _ => trivial

/-- C35, links: replaying the recorded steps gives the links of each flow instance with their statuses, provided no
link was removed and added again within a step without getting a status. What is missing is that case, see
`C35_negation_link`. -/
theorem C35_links_partial {env : Env} {e : Eng} (hr : Reachable env e) {css : List (List Call)} (hc : CallsOf e css) {i : Nat} {I : Inst}
    (hI : e.insts[i]? = some I) {k : LinkId} (hset : ∀ cs ∈ css, LinkSettled i k cs) :
    (replay i (recordedNew css)).links k = I.links.get? k := by
  have hok := (Eng.engOK_reachable hr).ok i I hI
  obtain ⟨c, h1, h2⟩ := hc.1 i I hI
  unfold replay recordedNew
  rw [replay_links rfl, calls_of (fun c => opL_none) h2 (opL_announce h1), hok.mirror.link, ← direct_links i I.uri]
  · rfl
  · intro cs hcs; exact settled_links (hset cs hcs)

/-- C35, tasks: replaying the recorded steps gives the tasks of each flow instance with their statuses, provided no
error handler emptied the task table, no status of a task that had left the table was changed, and no task was removed
and added again within a step without getting a status. What is missing are those cases, see `C35_negation_handler`. -/
theorem C35_tasks_partial {env : Env} {e : Eng} (hr : Reachable env e) {css : List (List Call)} (hc : CallsOf e css) {i : Nat} {I : Inst}
    (hI : e.insts[i]? = some I) (hst : NoStale I.trace) {k : TaskId} (hset : ∀ cs ∈ css, TaskSettled i k cs) :
    (replay i (recordedNew css)).tasks k = tasksOf I k := by
  have hok := (Eng.engOK_reachable hr).ok i I hI
  obtain ⟨c, h1, h2⟩ := hc.1 i I hI
  have hu : ∀ o t t', .taskAdded o t ∈ I.trace → .taskAdded o t' ∈ I.trace → t = t' := by
    intro o t t' ha hb
    obtain ⟨ob, h3, h4⟩ := hok.mirror.added o t ha
    obtain ⟨ob', h5, h6⟩ := hok.mirror.added o t' hb
    rw [h3] at h5; cases h5; rw [← h4, ← h6]
  unfold replay recordedNew
  rw [replay_tasks rfl, calls_of (fun c => opT_none) h2 (opT_announce h1)]
  · show List.foldl KOp.direct none _ = _
    rw [List.foldl_cons]
    refine (direct_tasks i I.uri k I.trace hst hu).trans ?_
    unfold tasksOf
    rw [hok.mirror.task]
    cases hl : liveTask I.trace k with
    | none => rfl
    | some o =>
      obtain ⟨ob, h3, _⟩ := hok.mirror.added o k (liveTask_added hl)
      simp only [Option.map_some, h3]
      rw [hok.mirror.stat o ob h3]
  · intro cs hcs; exact settled_tasks (hset cs hcs)

/-! Concrete cases. -/

/-- The calls made for a flow without subflows. -/
def callsMade (e : Eng) (I : Inst) : List Call :=
  .flowCreated I.uri .notStarted :: (I.trace.reverse.filterMap (callOf 0 I.uri) ++ e.qlog.reverse.map e.queueCall)

/-- Is the second call an addition of the link removed by the first? -/
def readdsLink (l : LinkId) : Call → Call → Bool
  | .linkRemoved _ k, .linkAdded _ m _ => k = l && m = l
  | _, _ => false

/-- Is the second call an addition of the task removed by the first? -/
def readdsTask (t : TaskId) : Call → Call → Bool
  | .taskRemoved _ k, .taskAdded _ _ m _ => k = t && m = t
  | _, _ => false

theorem linkSettled_of {sid : Nat} {l : LinkId} {cs : List Call} (h : cs.Pairwise (fun x y => readdsLink l x y = false)) :
    LinkSettled sid l cs := by
  rintro pre s post rfl hp
  have := (List.pairwise_append.1 h).2.2 _ hp _ (List.mem_cons_self ..)
  simp [readdsLink] at this

theorem taskSettled_of {sid : Nat} {t : TaskId} {cs : List Call} (h : cs.Pairwise (fun x y => readdsTask t x y = false)) :
    TaskSettled sid t cs := by
  rintro pre uri s post rfl hp
  have := (List.pairwise_append.1 h).2.2 _ hp _ (List.mem_cons_self ..)
  simp [readdsTask] at this

/-- The top-level instance. -/
def top (e : Eng) : Inst := (e.insts[0]?).getD { defn := { name := "", main := ⟨[], []⟩ } }

/-- The diamond A → B, A → C, B → D, C → D after nine micro steps: A and B are done and removed, C is pending. -/
def dia : Eng :=
  Eng.run plainEnv (Eng.init plainEnv "1" "u"
    { name := "f", main := ⟨[tk "A", tk "B", tk "C", tk "D"], deps 0 [("A", "B"), ("A", "C"), ("B", "D"), ("C", "D")]⟩ } []) 9

/-- Two recorded steps. -/
def diaCalls : List (List Call) := [(callsMade dia (top dia)).take 5, (callsMade dia (top dia)).drop 5]

theorem callsOf_single {e : Eng} (hl : e.insts.length = 1) {css : List (List Call)} (h : css.flatten = callsMade e (top e)) :
    CallsOf e css := by
  have h0 : ∀ (i : Nat) (I : Inst), e.insts[i]? = some I → i = 0 ∧ I = top e := by
    intro i I hI
    have : i < e.insts.length := (List.getElem?_eq_some_iff.1 hI).1
    have hi : i = 0 := by omega
    subst hi
    exact ⟨rfl, by unfold top; rw [hI]; rfl⟩
  have hcon : ∀ x ∈ (top e).trace.reverse.filterMap (callOf 0 (top e).uri), concerns 0 x = true ∧ ofQueue x = false := by
    intro x hx
    obtain ⟨ev, _, hop⟩ := List.mem_filterMap.1 hx
    cases ev <;> simp [callOf] at hop <;> subst hop <;> simp [concerns, ofQueue]
  have hq : ∀ x ∈ e.qlog.reverse.map e.queueCall, concerns 0 x = false ∧ ofQueue x = true := by
    intro x hx
    obtain ⟨ev, _, hop⟩ := List.mem_map.1 hx
    cases ev <;> simp [Eng.queueCall] at hop <;> subst hop <;> simp [concerns, ofQueue]
  constructor
  · intro i I hI
    obtain ⟨rfl, rfl⟩ := h0 i I hI
    refine ⟨.flowCreated (top e).uri .notStarted, Or.inl ⟨rfl, rfl⟩, ?_⟩
    rw [h]
    unfold callsMade
    rw [List.filter_cons, if_pos (by rfl), List.filter_append, List.filter_eq_self.2 (fun x hx => (hcon x hx).1),
      List.filter_eq_nil_iff.2 (fun x hx => by rw [(hq x hx).1]; simp), List.append_nil]
  · rw [h]
    unfold callsMade
    rw [List.filter_cons, if_neg (by simp [ofQueue]), List.filter_append, List.filter_eq_nil_iff.2 (fun x hx => by rw [(hcon x hx).2]; simp),
      List.filter_eq_self.2 (fun x hx => (hq x hx).2), List.nil_append]

theorem diaCalls_of : CallsOf dia diaCalls := callsOf_single rfl (by simp [diaCalls])

-- both steps of the diamond name the flow
example : (recordedNew diaCalls).map (fun s => (s.flows.get? 0).map (·.uri)) = [some "u", some "u"] := by decide
example : (top dia).uri = "u" := rfl

-- the hypotheses of the theorems above hold for the diamond, and the record shows the links and tasks
example : Reachable plainEnv dia := ⟨"1", "u", _, [], 9, rfl⟩
example : dia.insts[0]? = some (top dia) := rfl
example : ∀ cs ∈ diaCalls, LinkSettled 0 2 cs := by
  intro cs hcs
  apply linkSettled_of
  simp only [diaCalls, List.mem_cons, List.not_mem_nil, or_false] at hcs
  rcases hcs with rfl | rfl <;> decide
example : ∀ cs ∈ diaCalls, TaskSettled 0 "D" cs := by
  intro cs hcs
  apply taskSettled_of
  simp only [diaCalls, List.mem_cons, List.not_mem_nil, or_false] at hcs
  rcases hcs with rfl | rfl <;> decide
example : NoStale (top dia).trace := by
  show NoStale (_ :: _)
  simp only [NoStale]
  repeat' (first | exact trivial | constructor)
example : (replay 0 (recordedNew diaCalls)).links 2 = some .true ∧ (replay 0 (recordedNew diaCalls)).tasks "D" = some .entered ∧
    (replay 0 (recordedNew diaCalls)).tasks "A" = none ∧ replayQueue (recordedNew diaCalls) 3 = some "C" := by decide

/-- A flow whose only task A fails, with an error handler of one task H; the activity of A fails. -/
def handlerRun (n : Nat) : Eng :=
  let env := tableEnv (fun t => if t = "A" then { res := .err (.plain "boom") } else {}) (fun _ => .ok true)
  Eng.run env (Eng.init env "1" "u" { name := "f", main := ⟨[tk "A"], []⟩, eh := some ⟨[tk "H"], []⟩ } []) n

/-- C35 fails for tasks: when an error handler has run, the record still shows the failed task A as present, although the
instance has no task left. -/
theorem C35_negation_handler : ∃ css, CallsOf (handlerRun 10) css ∧ tasksOf (top (handlerRun 10)) "A" = none ∧
    (replay 0 (recordedNew css)).tasks "A" = some .failed :=
  ⟨[callsMade (handlerRun 10) (top (handlerRun 10))], callsOf_single rfl (by simp), by decide, by decide⟩

/-- A → C and A → B are not followed, C → B. -/
def shortcutRun (n : Nat) : Eng :=
  let env := tableEnv (fun _ => {}) (fun _ => .ok false)
  Eng.run env (Eng.init env "1" "u" { name := "f", main :=
    ⟨[tk "A", tk "B", tk "C"], [⟨0, "A", "C", .expression, ""⟩, ⟨1, "A", "B", .expression, ""⟩, ⟨2, "C", "B", .dependency, ""⟩]⟩ } []) n

/-- C35 fails for links: B is skipped and released, and entered again within the same step. The record shows its incoming
link as deleted, the instance has it. -/
theorem C35_negation_link : ∃ css, CallsOf (shortcutRun 12) css ∧ css.length = 2 ∧ (top (shortcutRun 12)).links.get? 1 = some .unset ∧
    (replay 0 (recordedNew css)).links 1 = none :=
  ⟨[(callsMade (shortcutRun 12) (top (shortcutRun 12))).take 5, (callsMade (shortcutRun 12) (top (shortcutRun 12))).drop 5],
    callsOf_single rfl (by simp), rfl, by decide, by decide⟩

end Flow
