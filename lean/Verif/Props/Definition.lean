import Verif.Proofs.DefinitionSer

/- Properties of flow definitions built from descriptions: C30, C52. -/

namespace Flow

open Flow.Ser Flow.Spec

/-- **C30** A successfully created definition has exactly the described tasks and links, in the main flow and in
the error handler; each task has the described incoming and outgoing links in the described order. -/
theorem C30_graph (env : SerEnv) (rep : DefRep) (d : BDef) (h : newDefinition env rep = .ok d) :
    SameGraph rep.tasks rep.links 0 d.main ∧
      (match rep.handler, d.handler with
       | none, none => True
       | some r, some g => SameGraph r.tasks r.links rep.links.length g
       | _, _ => False) := by
  unfold newDefinition at h
  split at h
  · rename_i d' hb
    cases h
    unfold build at hb
    obtain ⟨main, hm, hb⟩ := bind_ok hb
    obtain ⟨hd, hh, hb⟩ := bind_ok hb
    cases hb
    refine ⟨createGraph_same hm, ?_⟩
    unfold createHandler at hh
    cases hr : rep.handler with
    | none => rw [hr] at hh; cases hh; trivial
    | some r =>
      rw [hr] at hh
      obtain ⟨g, hg, e⟩ := map_ok hh
      subst e
      exact createGraph_same hg
  · cases h
  · cases h

/-- The identifiers of the links of a described graph. -/
theorem SameGraph.ids {ts : List TaskRep} {ls : List LinkRep} {n : Nat} {g : BGraph} (h : SameGraph ts ls n g) :
    g.links.map (fun p => p.2.id) = List.range' n ls.length := by
  have e : g.links.map (fun p => p.2.id) = (g.links.map (·.2)).map (·.id) := by simp
  rw [e, h.links, List.map_map]
  exact (List.map_congr_left (g := Prod.snd) (fun p _ => rfl)).trans (List.zipIdx_map_snd ..)

/-- **C30** The identifiers of the links are unique across the main flow and its error handler. -/
theorem C30_unique (env : SerEnv) (rep : DefRep) (d : BDef) (h : newDefinition env rep = .ok d) :
    (d.main.links.map (fun p => p.2.id) ++
      (match d.handler with
       | none => []
       | some g => g.links.map (fun p => p.2.id))).Nodup := by
  obtain ⟨hm, hh⟩ := C30_graph env rep d h
  rw [SameGraph.ids hm]
  cases hg : d.handler with
  | none => simpa using List.nodup_range'
  | some g =>
    rw [hg] at hh
    cases hr : rep.handler with
    | none => rw [hr] at hh; exact hh.elim
    | some r =>
      rw [hr] at hh
      show (_ ++ g.links.map (fun p => p.2.id)).Nodup
      rw [SameGraph.ids hh, List.nodup_append]
      refine ⟨List.nodup_range', List.nodup_range', ?_⟩
      intro a ha b hb
      rw [List.mem_range'_1] at ha hb
      exact Nat.ne_of_lt (Nat.lt_of_lt_of_le (by omega) hb.1)

/-- **C30** A description with a link whose end is not a described task is rejected, in the main flow and in the
error handler (whose links may only connect tasks of the error handler). -/
theorem C30_rejected (env : SerEnv) (rep : DefRep) :
    (∀ r ∈ rep.links, (¬ ∃ t ∈ rep.tasks, t.id = r.to) ∨ (¬ ∃ t ∈ rep.tasks, t.id = r.src) →
      ∃ m, newDefinition env rep = .error m) ∧
    (∀ eh, rep.handler = some eh → ∀ r ∈ eh.links,
      (¬ ∃ t ∈ eh.tasks, t.id = r.to) ∨ (¬ ∃ t ∈ eh.tasks, t.id = r.src) →
      ∃ m, newDefinition env rep = .error m) := by
  have key : ∀ {mid ts ls n g}, createGraph env mid ts ls n = .ok g → ∀ r ∈ ls,
      (∃ t ∈ ts, t.id = r.to) ∧ (∃ t ∈ ts, t.id = r.src) := by
    intro mid ts ls n g hg r hr
    unfold createGraph at hg
    obtain ⟨m, hm, hg⟩ := bind_ok hg
    obtain ⟨⟨m', links⟩, hl, _⟩ := bind_ok hg
    have hends := createLinks_ends hl r hr
    have hk := createTasks_get? hm
    simp only [AMap.get?_nil] at hk
    refine ⟨lastRep_isSome.1 ?_, lastRep_isSome.1 ?_⟩
    · have e := hk r.to
      cases hx : lastRep ts r.to with
      | some _ => rfl
      | none =>
        rw [hx] at e
        have : (m.get? r.to) = none := by simpa using e
        rw [this] at hends; exact hends.1
    · have e := hk r.src
      cases hx : lastRep ts r.src with
      | some _ => rfl
      | none =>
        rw [hx] at e
        have : (m.get? r.src) = none := by simpa using e
        rw [this] at hends; exact hends.2
  constructor
  · intro r hr hno
    cases hd : newDefinition env rep with
    | error m => exact ⟨m, rfl⟩
    | ok d =>
      exfalso
      unfold newDefinition at hd
      split at hd
      · rename_i d' hb
        unfold build at hb
        obtain ⟨main, hm, _⟩ := bind_ok hb
        have := key hm r hr
        rcases hno with h | h
        · exact h this.1
        · exact h this.2
      · cases hd
      · cases hd
  · intro eh heh r hr hno
    cases hd : newDefinition env rep with
    | error m => exact ⟨m, rfl⟩
    | ok d =>
      exfalso
      unfold newDefinition at hd
      split at hd
      · rename_i d' hb
        unfold build at hb
        obtain ⟨main, _, hb⟩ := bind_ok hb
        obtain ⟨hh, hh', _⟩ := bind_ok hb
        unfold createHandler at hh'
        rw [heh] at hh'
        obtain ⟨g, hg, _⟩ := map_ok hh'
        have := key hg r hr
        rcases hno with h | h
        · exact h this.1
        · exact h this.2
      · cases hd
      · cases hd

theorem find?_toGraph {g : BGraph} : ∀ (m : Tasks), m.keys.Nodup → (∀ t b, m.get? t = some b → b.rep.id = t) →
    ∀ t, (m.map (fun p => p.2.toTask)).find? (fun x => x.id = t) = (m.get? t).map BTask.toTask
  | [], _, _, t => rfl
  | (a, b) :: m, hn, hid, t => by
    have hb : b.rep.id = a := hid a b (by simp [AMap.get?])
    simp only [AMap.keys, List.map_cons, List.nodup_cons] at hn
    have hid' : ∀ t b, AMap.get? m t = some b → b.rep.id = t := by
      intro t' b' h'
      refine hid t' b' ?_
      have : a ≠ t' := fun e => by
        subst e
        exact hn.1 (AMap.get?_isSome_iff.1 (by rw [h']; rfl))
      simp [AMap.get?, this, h']
    simp only [List.map_cons, List.find?_cons, AMap.get?]
    by_cases e : a = t
    · have : decide ((BTask.toTask b).id = t) = true := by simp [BTask.toTask, hb, e]
      simp [e, this]
    · have : decide ((BTask.toTask b).id = t) = false := by simp [BTask.toTask, hb, e]
      simp only [this, e, if_false]
      exact find?_toGraph (g := g) m hn.2 hid' t

/-- **C30** The engine model, which computes the links of a task from the list of all links of the graph, sees for
every task exactly the links attached to it by the construction, and exactly the described tasks. -/
theorem C30_engine (ts : List TaskRep) (ls : List LinkRep) (n : Nat) (g : BGraph) (h : SameGraph ts ls n g)
    (t : TaskId) (b : BTask) (hb : g.tasks.get? t = some b) :
    g.toGraph.toLinks t = b.toLinks ∧ g.toGraph.fromLinks t = b.fromLinks ∧
      g.toGraph.tasks.find? (fun x => x.id = t) = some b.toTask := by
  refine ⟨?_, ?_, ?_⟩
  · rw [h.out t b hb]
    simp only [Graph.toLinks, BGraph.toGraph, h.links, outgoing]
  · rw [h.into t b hb]
    simp only [Graph.fromLinks, BGraph.toGraph, h.links, incoming]
  · have hid : ∀ t b, g.tasks.get? t = some b → b.rep.id = t := by
      intro t b hb
      have e := h.tasks t
      rw [hb] at e
      have e' : lastRep ts t = some b.rep := e.symm
      clear e hb h
      induction ts with
      | nil => cases e'
      | cons r rs ih =>
        simp only [lastRep] at e'
        cases hx : lastRep rs t with
        | some x => rw [hx] at e'; exact ih (by rw [hx]; exact e')
        | none =>
          rw [hx] at e'
          simp only [Option.orElse] at e'
          split at e'
          · rename_i hr; cases e'; exact hr
          · cases e'
    show (g.tasks.map (fun p => p.2.toTask)).find? _ = _
    rw [find?_toGraph (g := g) g.tasks h.distinct hid t, hb]
    rfl

/-- A complete description is accepted: if every task can be created, every link has known ends and a type that
can be used, a definition is created. -/
theorem C30_accepted (env : SerEnv) (rep : DefRep) (hn : rep.handler = none)
    (ht : ∀ r ∈ rep.tasks, ∃ b, createTask env rep.modelId r = .ok b)
    (hl : ∀ r ∈ rep.links, (∃ t ∈ rep.tasks, t.id = r.to) ∧ (∃ t ∈ rep.tasks, t.id = r.src) ∧
      (typeOf r.type = .expression → r.value ≠ "" ∧ env.newExpr r.value = none)) :
    ∃ d, newDefinition env rep = .ok d := by
  have htasks : ∀ (rs : List TaskRep) (m : Tasks), (∀ r ∈ rs, ∃ b, createTask env rep.modelId r = .ok b) →
      ∃ m', createTasks env rep.modelId rs m = .ok m' := by
    intro rs
    induction rs with
    | nil => intro m _; exact ⟨m, rfl⟩
    | cons r rs ih =>
      intro m h
      obtain ⟨b, hb⟩ := h r List.mem_cons_self
      obtain ⟨m', hm'⟩ := ih (m.set r.id b) (fun r' hr' => h r' (List.mem_cons_of_mem _ hr'))
      refine ⟨m', ?_⟩
      unfold createTasks
      rw [hb]
      exact hm'
  have htype : ∀ r : LinkRep, (typeOf r.type = .expression → r.value ≠ "" ∧ env.newExpr r.value = none) →
      ∃ ty, linkType env r = .ok ty := by
    intro r h
    unfold linkType
    split
    · exact ⟨_, rfl⟩
    · split
      · rename_i hs
        have : typeOf r.type = .expression := by rcases hs with hs | hs <;> rw [hs] <;> rfl
        obtain ⟨h1, h2⟩ := h this
        rw [if_neg h1]
        unfold compile
        rw [h2]
        exact ⟨_, rfl⟩
      · split
        · exact ⟨_, rfl⟩
        · split
          · exact ⟨_, rfl⟩
          · split <;> exact ⟨_, rfl⟩
  have hlinks : ∀ (rs : List LinkRep) (n : Nat) (m : Tasks) (acc : AMap LinkId LinkDef),
      (∀ r ∈ rs, (m.get? r.to).isSome ∧ (m.get? r.src).isSome ∧
        (typeOf r.type = .expression → r.value ≠ "" ∧ env.newExpr r.value = none)) →
      ∃ x, createLinks env rs n m acc = .ok x := by
    intro rs
    induction rs with
    | nil => intro n m acc _; exact ⟨_, rfl⟩
    | cons r rs ih =>
      intro n m acc h
      obtain ⟨h1, h2, h3⟩ := h r List.mem_cons_self
      obtain ⟨ty, hty⟩ := htype r h3
      have hcl : ∃ l m', createLink env m r n = .ok (l, m') := by
        unfold createLink
        rw [hty]
        cases hx : AMap.get? m r.to with
        | none => rw [hx] at h1; cases h1
        | some _ =>
          cases hy : AMap.get? m r.src with
          | none => rw [hy] at h2; cases h2
          | some _ => exact ⟨_, _, rfl⟩
      obtain ⟨l, m', hcl⟩ := hcl
      have hm' := (createLink_ok hcl).2.2.2
      obtain ⟨x, hx⟩ := ih (n + 1) m' (acc.set l.id l) (by
        intro r' hr'
        have := h r' (List.mem_cons_of_mem _ hr')
        simp only [hm', get?_addTo, get?_addFrom, Option.isSome_map]
        exact this)
      refine ⟨x, ?_⟩
      unfold createLinks
      rw [hcl]
      exact hx
  obtain ⟨m, hm⟩ := htasks rep.tasks [] ht
  have hk := createTasks_get? hm
  simp only [AMap.get?_nil] at hk
  have hsome : ∀ t, (∃ r ∈ rep.tasks, r.id = t) → (m.get? t).isSome := by
    intro t h
    have h1 := lastRep_isSome.2 h
    have e := hk t
    cases hx : lastRep rep.tasks t with
    | none => rw [hx] at h1; cases h1
    | some r =>
      rw [hx] at e
      cases hy : AMap.get? m t with
      | none => rw [hy] at e; cases e
      | some _ => rfl
  obtain ⟨⟨m', ls⟩, hx⟩ := hlinks rep.links 0 m [] (fun r hr =>
    ⟨hsome _ (hl r hr).1, hsome _ (hl r hr).2.1, (hl r hr).2.2⟩)
  refine ⟨{ name := rep.name, modelId := rep.modelId, explicitReply := explicitReply env rep
            main := { tasks := m', links := ls }, handler := none }, ?_⟩
  · unfold newDefinition build createGraph createHandler
    rw [hm, hn]
    simp only [bind, Except.bind, hx, pure, Except.pure]

/-! #### Where descriptions are not taken literally -/

/-- Outside code that accepts everything. -/
def lenient : SerEnv :=
  { validType := fun _ _ => true, newExpr := fun _ => none
    toObject := fun v => match v with
      | .obj m => .ok m
      | _ => .error "not an object"
    toInt := fun v => match v with
      | .int n => .ok n
      | _ => .error "not an integer"
    toBool := fun v => match v with
      | .bool b => b
      | _ => false
    resolve := fun _ => .error "unknown", mapper := fun _ => none
    activity := fun _ _ => .ok {} }

/-- A description with two tasks of the same name `A`, the links between `A`, `B`, and an error handler. -/
def sampleRep : DefRep :=
  { name := "sample"
    tasks := [{ id := "A", type := "iterator", settings := [("iterateOn", .int 3)] }, { id := "B" }]
    links := [{ to := "B", src := "A", type := "expression", value := "true" }, { to := "B", src := "A", type := "error" }]
    handler := some { tasks := [{ id := "A" }, { id := "H" }], links := [{ to := "H", src := "A" }] } }

/-- The hypothesis of `C30_graph` and `C30_unique` is met by a description with an error handler whose link gets
the identifier 2. -/
example : (newDefinition lenient sampleRep).toOption.map (fun d =>
    (d.main.links.keys, d.handler.map (fun g => g.links.keys))) = some ([0, 1], some [2]) := by rfl

/-- Two tasks with the same identifier are accepted, and the first one disappears: the definition has fewer tasks
than its description. -/
theorem C30_negation_duplicate : ∃ rep d, newDefinition lenient rep = .ok d ∧
    d.main.tasks.length < rep.tasks.length := by
  refine ⟨{ name := "f", tasks := [{ id := "A", name := "first" }, { id := "A", name := "second" }] }, _, rfl, ?_⟩
  decide

/-- A link whose type is misspelled is accepted and always followed: it becomes a dependency. -/
theorem C30_negation_type (env : SerEnv) (id : LinkId) (m : Tasks) (a b : TaskId)
    (ha : (m.get? a).isSome) (hb : (m.get? b).isSome) :
    ∃ l m', createLink env m { type := "expresion", to := b, src := a, value := "false" } id = .ok (l, m') ∧
      l.type = .dependency := by
  unfold createLink
  have : linkType env { type := "expresion", to := b, src := a, value := "false" } = .ok .dependency := rfl
  rw [this]
  cases hx : AMap.get? m b with
  | none => rw [hx] at hb; cases hb
  | some _ =>
    cases hy : AMap.get? m a with
    | none => rw [hy] at ha; cases ha
    | some _ =>
      exact ⟨_, _, rfl, rfl⟩

/-! ### Loop settings -/

theorem stripEq_plain {e : String} (h : PlainExpr e) : stripEq e = some e := by
  obtain ⟨c, r, h1, h2⟩ := h
  unfold stripEq
  rw [h1]
  simp [h2]

theorem stripEq_eq (e : String) : stripEq ("=" ++ e) = some e := by
  unfold stripEq
  rw [String.toList_append]
  show some (if '=' = '=' then String.ofList e.toList else "=" ++ e) = _
  simp

theorem compile_of {env : SerEnv} {w s : String} (h : env.newExpr s = none) : compile env w s = .ok s := by
  unfold compile; rw [h]

/-- Reading the settings of a loop that are written as documented. -/
theorem loopOf_says {env : SerEnv} (hc : CoreOk env) {m : AMap String Val} {L : LoopSettings} (hs : Says m L)
    (he : Compiles env L) : loopOf env m = .ok (expectedLoop L false) := by
  have h1 : readCondition env (m.get? "condition") = .ok L.condition := by
    have := hs.condition
    cases hL : L.condition with
    | none => rw [hL] at this; rw [this]; rfl
    | some e =>
      rw [hL] at this
      obtain ⟨hp, hx | hx⟩ := this
      · rw [hx]; unfold readCondition; simp only [stripEq_plain hp, compile_of (he.1 e hL), Except.map]
      · rw [hx]; unfold readCondition; simp only [stripEq_eq, compile_of (he.1 e hL), Except.map]
  have h2 : readIterateOn env (iterateSetting m) = .ok (L.over.map fun o => match o with
        | .expr s => .expr s
        | .const v => .const v) := by
    have := hs.over
    cases hL : L.over with
    | none =>
      rw [hL] at this
      unfold iterateSetting
      rcases this with ⟨h1 | h1, h2 | h2⟩ <;> rw [h1] <;> dsimp only <;> rw [h2] <;> rfl
    | some o =>
      rw [hL] at this
      cases o with
      | expr e =>
        obtain ⟨hp, k, hk, hx⟩ := this
        have hset : iterateSetting m = some (.str e) ∨ iterateSetting m = some (.str ("=" ++ e)) := by
          unfold iterateSetting
          rcases hk with hk | ⟨hk, hno⟩
          · subst hk; rcases hx with hx | hx <;> rw [hx] <;> simp
          · subst hk; rcases hno with hno | hno <;> rw [hno] <;> exact hx
        rcases hset with hx | hx
        · rw [hx]; unfold readIterateOn; simp only [stripEq_plain hp, compile_of (he.2 e hL), Except.map, Option.map]
        · rw [hx]; unfold readIterateOn; simp only [stripEq_eq, compile_of (he.2 e hL), Except.map, Option.map]
      | const v =>
        obtain ⟨hv1, hv2, k, hk, hx⟩ := this
        have hset : iterateSetting m = some v := by
          unfold iterateSetting
          rcases hk with hk | ⟨hk, hno⟩
          · subst hk; rw [hx]; cases v <;> first | rfl | exact absurd rfl hv2
          · subst hk; rcases hno with hno | hno <;> rw [hno] <;> exact hx
        rw [hset]
        cases v <;> first | rfl | exact absurd rfl hv2 | exact absurd rfl (hv1 _)
  have h3 : readDelay env (m.get? "delay") = .ok (L.delay.getD 0) := by
    have := hs.delay
    cases hL : L.delay with
    | none => rw [hL] at this; rcases this with h | h <;> rw [h] <;> rfl
    | some n => rw [hL] at this; rw [this]; show delayOf env (.int n) = _; unfold delayOf; rw [hc.int]; rfl
  have h4 : readAccumulate env (m.get? "accumulate") = L.accumulate.getD false := by
    rw [hs.accumulate]
    cases L.accumulate with
    | none => rfl
    | some b => exact hc.bool b
  unfold loopOf
  rw [h1, h2, h3, h4]
  show Except.ok (LoopConf.orNil _) = _
  unfold LoopConf.orNil expectedLoop
  cases L.condition with
  | some e => rfl
  | none => cases L.over <;> rfl

/-- **C52** (documented forms) Loop settings written as documented, directly among the settings of the task or
below `loopConfig`, are read as written: a loop exists exactly if a condition or something to iterate on is given,
without `delay` there is no delay, without `accumulate` nothing is accumulated; in a task of type `doWhile` the
outputs are also applied while accumulating. -/
theorem C52_read_partial (env : SerEnv) (hc : CoreOk env) (settings m : AMap String Val) (L : LoopSettings)
    (typ : String)
    (hform : (m = settings ∧ settings.get? "loopConfig" = none ∧ settings.get? "doWhile" = none) ∨
      settings.get? "loopConfig" = some (.obj m))
    (hs : Says m L) (he : Compiles env L) :
    loopCfg env settings typ = .ok (expectedLoop L (decide (typ = "doWhile"))) := by
  have hraw : rawLoopCfg env settings = .ok (expectedLoop L false) := by
    unfold rawLoopCfg
    rcases hform with ⟨h0, h1, h2⟩ | h1
    · subst h0
      simp only [h1, h2]
      unfold loopCfgDef
      rw [hc.obj]
      exact loopOf_says hc hs he
    · simp only [h1]
      unfold loopCfgDef
      rw [hc.obj]
      exact loopOf_says hc hs he
  unfold loopCfg
  rw [hraw]
  show Except.ok (Option.map _ (expectedLoop L false)) = _
  unfold expectedLoop
  by_cases hn : L.condition = none ∧ L.over.isNone = true
  · simp only [if_pos hn, Option.map_none]
  · simp only [if_neg hn, Option.map_some]
    by_cases e : typ = "doWhile"
    · simp [e]
    · simp [e]

/-- **C52** The same for the form `doWhile: {…}`, where `accumulate` may also be given next to it and then
replaces the inner one. -/
theorem C52_read_doWhile_partial (env : SerEnv) (hc : CoreOk env) (settings m : AMap String Val) (L : LoopSettings)
    (outer : Option Bool) (typ : String)
    (h1 : settings.get? "loopConfig" = none) (h2 : settings.get? "doWhile" = some (.obj m))
    (h3 : settings.get? "accumulate" = outer.map .bool) (hs : Says m L) (he : Compiles env L) :
    loopCfg env settings typ =
      .ok (expectedLoop { L with accumulate := outer.or L.accumulate } (decide (typ = "doWhile"))) := by
  unfold loopCfg rawLoopCfg
  simp only [h1, h2]
  unfold loopCfgDef
  rw [hc.obj]
  simp only [loopOf_says hc hs he, Except.map]
  unfold expectedLoop
  by_cases hn : L.condition = none ∧ L.over.isNone = true
  · simp [hn]
  · simp only [if_neg hn, Option.map_some, outerAccumulate, h3]
    cases outer with
    | none => by_cases e : typ = "doWhile" <;> simp [e]
    | some b => by_cases e : typ = "doWhile" <;> simp [e, hc.bool]

/-- Loop settings that cannot be used: a condition that is not a string, an empty string to iterate on, an
expression that does not compile, a delay that is not an integer. -/
inductive BadLoop (env : SerEnv) (m : AMap String Val) : Prop
  | condition (v : Val) (h : m.get? "condition" = some v) (hs : ∀ s, v ≠ .str s)
  | expr (e : String) (hp : PlainExpr e) (h : m.get? "condition" = some (.str e) ∨ m.get? "condition" = some (.str ("=" ++ e)))
      (hb : env.newExpr e ≠ none)
  | overEmpty (h : m.get? "iterateOn" = some (.str ""))
  | overExpr (e : String) (hp : PlainExpr e)
      (h : m.get? "iterateOn" = some (.str e) ∨ m.get? "iterateOn" = some (.str ("=" ++ e))) (hb : env.newExpr e ≠ none)
  | delay (v : Val) (h : m.get? "delay" = some v) (hn : v ≠ .null) (hs : ∀ s, v ≠ .str s)
      (hi : ∀ n, env.toInt v ≠ .ok n)

theorem compile_bad {env : SerEnv} {w s : String} (h : env.newExpr s ≠ none) : ∃ f, compile env w s = .error f := by
  unfold compile
  cases hn : env.newExpr s with
  | none => exact absurd hn h
  | some m => exact ⟨_, rfl⟩

theorem loopOf_bad {env : SerEnv} {m : AMap String Val} (h : BadLoop env m) : ∃ f, loopOf env m = .error f := by
  have hc : (∃ f, readCondition env (m.get? "condition") = .error f) → ∃ f, loopOf env m = .error f := by
    rintro ⟨f, hf⟩; exact ⟨f, by unfold loopOf; rw [hf]; rfl⟩
  have hi : (∃ f, readIterateOn env (iterateSetting m) = .error f) → ∃ f, loopOf env m = .error f := by
    rintro ⟨f, hf⟩
    unfold loopOf
    cases readCondition env (m.get? "condition") with
    | error g => exact ⟨g, rfl⟩
    | ok c => rw [hf]; exact ⟨f, rfl⟩
  cases h with
  | condition v h hs =>
    refine hc ?_
    rw [h]
    cases v <;> first | exact ⟨_, rfl⟩ | exact absurd rfl (hs _)
  | expr e hp h hb =>
    refine hc ?_
    obtain ⟨f, hf⟩ := compile_bad (w := "compile loop condition error: ") hb
    rcases h with h | h <;> rw [h] <;> unfold readCondition
    · simp only [stripEq_plain hp, hf]; exact ⟨_, rfl⟩
    · simp only [stripEq_eq, hf]; exact ⟨_, rfl⟩
  | overEmpty h =>
    refine hi ?_
    have : iterateSetting m = some (.str "") := by unfold iterateSetting; rw [h]
    rw [this]
    exact ⟨_, rfl⟩
  | overExpr e hp h hb =>
    refine hi ?_
    obtain ⟨f, hf⟩ := compile_bad (w := "compile iterateOn error: ") hb
    rcases h with h | h
    · have : iterateSetting m = some (.str e) := by unfold iterateSetting; rw [h]
      rw [this]; unfold readIterateOn; simp only [stripEq_plain hp, hf]; exact ⟨_, rfl⟩
    · have : iterateSetting m = some (.str ("=" ++ e)) := by unfold iterateSetting; rw [h]
      rw [this]; unfold readIterateOn; simp only [stripEq_eq, hf]; exact ⟨_, rfl⟩
  | delay v h hn hs hi' =>
    have hd : ∃ f, readDelay env (m.get? "delay") = .error f := by
      rw [h]
      have hx : delayOf env v = .error (.err "loop delay must be int") := by
        unfold delayOf
        cases hy : env.toInt v with
        | ok n => exact absurd hy (hi' n)
        | error _ => rfl
      cases v <;> first | exact ⟨_, hx⟩ | exact absurd rfl hn | exact absurd rfl (hs _)
    obtain ⟨f, hd⟩ := hd
    unfold loopOf
    cases readCondition env (m.get? "condition") with
    | error g => exact ⟨g, rfl⟩
    | ok c =>
      cases readIterateOn env (iterateSetting m) with
      | error g => exact ⟨g, rfl⟩
      | ok i => rw [hd]; exact ⟨f, rfl⟩

theorem rejected_of_loopCfg {env : SerEnv} {rep : DefRep} {r : TaskRep} (hr : r ∈ rep.tasks ∨ ∃ eh, rep.handler = some eh ∧ r ∈ eh.tasks)
    {f : Fault} (hloop : loopCfg env r.settings r.type = .error f) : ∃ msg, newDefinition env rep = .error msg := by
  have hno : ∀ b, createTask env rep.modelId r ≠ .ok b := by
    intro b hb
    unfold createTask at hb
    split at hb
    · cases hb
    · rw [hloop] at hb; cases hb
  have hgraph : ∀ {ts ls n g}, r ∈ ts → createGraph env rep.modelId ts ls n ≠ .ok g := by
    intro ts ls n g hmem hg
    unfold createGraph at hg
    obtain ⟨m', hm', _⟩ := bind_ok hg
    obtain ⟨b, hb⟩ := createTasks_all hm' r hmem
    exact hno b hb
  unfold newDefinition
  cases hb : build env rep with
  | error e => cases e <;> exact ⟨_, rfl⟩
  | ok d =>
    exfalso
    unfold build at hb
    obtain ⟨main, hm, hb⟩ := bind_ok hb
    obtain ⟨hh, hh', _⟩ := bind_ok hb
    rcases hr with hr | ⟨eh, heh, hr⟩
    · exact hgraph hr hm
    · unfold createHandler at hh'
      rw [heh] at hh'
      obtain ⟨g, hg, _⟩ := map_ok hh'
      exact hgraph hr hg

/-- **C52** A description in which some task has loop settings that cannot be used is rejected as a whole. -/
theorem C52_rejected (env : SerEnv) (hobj : ∀ m, env.toObject (.obj m) = .ok m) (rep : DefRep) (r : TaskRep)
    (hr : r ∈ rep.tasks ∨ ∃ eh, rep.handler = some eh ∧ r ∈ eh.tasks) (m : AMap String Val)
    (hform : (m = r.settings ∧ r.settings.get? "loopConfig" = none ∧ r.settings.get? "doWhile" = none) ∨
      r.settings.get? "loopConfig" = some (.obj m) ∨
      (r.settings.get? "loopConfig" = none ∧ r.settings.get? "doWhile" = some (.obj m)))
    (hbad : BadLoop env m) : ∃ msg, newDefinition env rep = .error msg := by
  obtain ⟨f, hf⟩ := loopOf_bad hbad
  have hdef : loopCfgDef env (.obj m) = .error f := by unfold loopCfgDef; rw [hobj]; exact hf
  have hloop : loopCfg env r.settings r.type = .error f := by
    unfold loopCfg rawLoopCfg
    rcases hform with ⟨h0, h1, h2⟩ | h1 | ⟨h1, h2⟩
    · subst h0; simp only [h1, h2, hdef]; rfl
    · simp only [h1, hdef]; rfl
    · simp only [h1, h2, hdef]; rfl
  exact rejected_of_loopCfg hr hloop

/-- **C52** So is one in which the loop settings of some task cannot be read as an object. -/
theorem C52_rejected_value (env : SerEnv) (rep : DefRep) (r : TaskRep)
    (hr : r ∈ rep.tasks ∨ ∃ eh, rep.handler = some eh ∧ r ∈ eh.tasks) {v : Val}
    (hform : r.settings.get? "loopConfig" = some v ∨ (r.settings.get? "loopConfig" = none ∧ r.settings.get? "doWhile" = some v))
    {m : String} (hbad : env.toObject v = .error m) : ∃ msg, newDefinition env rep = .error msg := by
  have hdef : loopCfgDef env v = .error (.err m) := by unfold loopCfgDef; rw [hbad]
  refine rejected_of_loopCfg hr (f := .err m) ?_
  unfold loopCfg rawLoopCfg
  rcases hform with h1 | ⟨h1, h2⟩
  · simp only [h1, hdef]; rfl
  · simp only [h1, h2, hdef]; rfl

/-- The settings of the documented example `iterateOn: 10, delay: 5`, with the old name and with an expression. -/
example : Says [("iterateOn", .int 10), ("delay", .int 5)] { over := some (.const (.int 10)), delay := some 5 } :=
  ⟨rfl, ⟨(fun _ h => nomatch h), (fun h => nomatch h), "iterateOn", Or.inl rfl, rfl⟩, rfl, rfl⟩

example : Says [("iterate", .str "=$flow.orders"), ("accumulate", .bool true)]
    { over := some (.expr "$flow.orders"), accumulate := some true } :=
  ⟨rfl, ⟨⟨'$', "flow.orders".toList, by decide, by decide⟩, "iterate", Or.inr ⟨rfl, .inl rfl⟩, Or.inr rfl⟩, .inl rfl, rfl⟩

example : CoreOk lenient := ⟨fun _ => rfl, fun _ => rfl, fun _ => rfl⟩

/-- **C52** The last part is false: combinations that make no sense are accepted. A task of type `iterator` needs
neither something to iterate on nor any loop setting, and it may have a condition instead, which is ignored; a task
of type `doWhile` needs no condition. -/
theorem C52_negation :
    (∃ b, createTask lenient "" { id := "A", type := "iterator" } = .ok b ∧ b.loop.isNone) ∧
    (∃ b, createTask lenient "" { id := "A", type := "iterator", settings := [("condition", .str "true")] } = .ok b ∧
      b.loop.any (fun c => c.iterateOn.isNone && c.condition.isSome)) ∧
    (∃ b, createTask lenient "" { id := "A", type := "doWhile", settings := [("iterateOn", .int 3)] } = .ok b ∧
      b.loop.any (fun c => c.iterateOn.isSome && c.condition.isNone)) ∧
    (∃ b, createTask lenient "" { id := "A", settings := [("iterateOn", .int 3)] } = .ok b ∧ b.loop.isSome) :=
  ⟨⟨_, rfl, rfl⟩, ⟨_, rfl, rfl⟩, ⟨_, rfl, rfl⟩, ⟨_, rfl, rfl⟩⟩

/-- **C52** A misspelled or unreadable `accumulate` is silently taken as off, while a `delay` of a wrong type
rejects the definition even if the task has no loop at all. -/
theorem C52_negation_types :
    loopCfg lenient [("iterateOn", .int 3), ("accumulate", .str "yes")] "iterator" =
      .ok (some { iterateOn := some (.const (.int 3)) }) ∧
    loopCfg lenient [("delay", .str "soon")] "" = .error (.err "loop delay must be int") :=
  ⟨rfl, rfl⟩

theorem createTask_loop {env : SerEnv} {modelId : String} {r : TaskRep} {b : BTask} (h : createTask env modelId r = .ok b) :
    loopCfg env r.settings r.type = .ok b.loop := by
  unfold createTask at h
  split at h
  · cases h
  · obtain ⟨l, hl, h⟩ := bind_ok h
    obtain ⟨rt, _, h⟩ := bind_ok h
    have hb : b.loop = l := by
      split at h
      · cases h
      · split at h
        · cases h; rfl
        · split at h
          · cases h
          · cases h; rfl
    rw [hb]; exact hl

/-- **C52** The task that is executed has the loop its settings describe: it accumulates if the settings say so, it checks a condition
exactly if the settings have one, it applies the outputs of every round exactly if it is a do-while task, and it has no loop if there
is neither a condition nor something to iterate on. -/
theorem C52_task_partial (env : SerEnv) (hc : CoreOk env) (modelId : String) (r : TaskRep) (m : AMap String Val) (L : LoopSettings) (b : BTask)
    (hb : createTask env modelId r = .ok b)
    (hform : (m = r.settings ∧ r.settings.get? "loopConfig" = none ∧ r.settings.get? "doWhile" = none) ∨
      r.settings.get? "loopConfig" = some (.obj m))
    (hs : Says m L) (he : Compiles env L) :
    (b.toTask.loop = none ↔ L.condition = none ∧ L.over.isNone) ∧
    ∀ c, b.toTask.loop = some c → c.accumulate = L.accumulate.getD false ∧ (c.hasCondition = true ↔ L.condition ≠ none) ∧
      (c.applyOutput = true ↔ r.type = "doWhile") := by
  have h := (createTask_loop hb).symm.trans (C52_read_partial env hc r.settings m L r.type hform hs he)
  have h : b.loop = expectedLoop L (decide (r.type = "doWhile")) := by injection h
  unfold BTask.toTask
  dsimp only
  rw [h]
  unfold expectedLoop
  by_cases hn : L.condition = none ∧ L.over.isNone = true
  · rw [if_pos hn]
    exact ⟨⟨fun _ => hn, fun _ => rfl⟩, fun _ hx => nomatch hx⟩
  · rw [if_neg hn]
    refine ⟨⟨fun hx => (nomatch hx), fun hx => absurd hx hn⟩, fun c hx => ?_⟩
    cases hx
    refine ⟨rfl, ?_, ?_⟩
    · dsimp only
      cases L.condition <;> simp
    · simp

-- non-trivial instance: a do-while task that accumulates
example : ∃ b, createTask lenient "" { id := "A", type := "doWhile", settings := [("condition", .str "x"), ("accumulate", .bool true)] } = .ok b ∧
    b.toTask.loop = some ⟨true, true, true⟩ := ⟨_, rfl, rfl⟩

/-! ### C68 -/

theorem exprBody_eq (s : String) : exprBody ("=" ++ s) = some s := by
  unfold exprBody
  rw [String.toList_append]
  show some (String.ofList s.toList) = _
  simp

theorem exprBody_some {s r : String} (h : exprBody s = some r) : s = "=" ++ r := by
  unfold exprBody at h
  split at h
  · rename_i l hl
    cases h
    apply String.toList_inj.1
    rw [hl]
    simp
  · cases h

theorem exprBody_none {s : String} (h : ∀ r, s.toList ≠ '=' :: r) : exprBody s = none := by
  unfold exprBody
  split
  · rename_i l hl; exact absurd hl (h l)
  · rfl

theorem readRetry_says {env : SerEnv} (hc : CoreOk env) {m : AMap String Val} {k : String} {a : Amount} (h : SaysAmount env m k a)
    (what msg : String) : ∃ x, readRetry env what msg (m.get? k) = .ok x ∧ ∀ ev, retryValue env ev x = a.value env ev := by
  cases a with
  | missing =>
    refine ⟨none, ?_, fun _ => rfl⟩
    rcases h with h | h <;> rw [h] <;> rfl
  | number n =>
    refine ⟨some (.const n), ?_, fun _ => hc.int n⟩
    have h : m.get? k = some (.int n) := h
    rw [h]
    show retryInt env what (.int n) = _
    unfold retryInt
    rw [hc.int]
  | text s n =>
    obtain ⟨h1, h2, h3⟩ := h
    refine ⟨some (.const n), ?_, fun _ => hc.int n⟩
    rw [h1]
    unfold readRetry
    dsimp only
    rw [exprBody_none h2]
    show retryInt env what (.str s) = _
    unfold retryInt
    rw [h3]
  | expr s =>
    obtain ⟨h1, h2⟩ := h
    refine ⟨some (.expr s), ?_, fun ev => ?_⟩
    · rw [h1]
      unfold readRetry
      dsimp only
      rw [exprBody_eq]
      simp only [compile_of h2, Except.map]
    · simp only [retryValue, Amount.value]
      cases ev s <;> rfl

/-- **C68** Retry settings are read as written: the number of retries and the interval are the numbers that the settings say,
given as number, text or expression; what is left out is 0. A task without the setting does not retry. -/
theorem C68_read (env : SerEnv) (hc : CoreOk env) (settings : AMap String Val) :
    (settings.get? "retryOnError" = none → retryCfg env settings = .ok none) ∧
    ∀ (m : AMap String Val) (count interval : Amount), settings.get? "retryOnError" = some (.obj m) →
      SaysAmount env m "count" count → SaysAmount env m "interval" interval →
      ∃ c, retryCfg env settings = .ok (some c) ∧
        ∀ ev, retryValue env ev c.count = count.value env ev ∧ retryValue env ev c.interval = interval.value env ev := by
  refine ⟨fun h => by unfold retryCfg; rw [h], fun m count interval h h1 h2 => ?_⟩
  obtain ⟨x, hx, hx2⟩ := readRetry_says hc h1 "count" "compile retry on error condition error: "
  obtain ⟨y, hy, hy2⟩ := readRetry_says hc h2 "interval" "compile retry on error condition error: "
  refine ⟨{ count := x, interval := y }, ?_, fun ev => ⟨hx2 ev, hy2 ev⟩⟩
  unfold retryCfg
  rw [h]
  dsimp only
  rw [hc.obj]
  dsimp only
  rw [hx, hy]
  rfl

/-- **C68** A task that was built retries exactly if it has the setting. -/
theorem C68_configured {env : SerEnv} {modelId : String} {r : TaskRep} {b : BTask} (h : createTask env modelId r = .ok b) :
    b.toTask.retry = true ↔ r.settings.get? "retryOnError" ≠ none := by
  unfold createTask at h
  split at h
  · cases h
  · obtain ⟨l, _, h⟩ := bind_ok h
    obtain ⟨rt, hrt, h⟩ := bind_ok h
    have hb : b.retry = rt := by
      split at h
      · cases h
      · split at h
        · cases h; rfl
        · split at h
          · cases h
          · cases h; rfl
    have hsome : rt.isSome = true ↔ r.settings.get? "retryOnError" ≠ none := by
      unfold retryCfg at hrt
      split at hrt
      · rename_i hn
        cases hrt
        exact ⟨fun h => (nomatch h), fun h => absurd hn h⟩
      · rename_i v hv
        split at hrt
        · cases hrt
        · obtain ⟨c, _, hrt⟩ := bind_ok hrt
          obtain ⟨i, _, hrt⟩ := bind_ok hrt
          cases hrt
          exact ⟨fun _ hc => (by cases hv.symm.trans hc), fun _ => rfl⟩
    show b.retry.isSome = true ↔ _
    rw [hb]
    exact hsome

theorem readRetry_bad {env : SerEnv} {m : AMap String Val} {k : String} (h : NoAmount env m k) (what msg : String) :
    ∃ f, readRetry env what msg (m.get? k) = .error f := by
  have hint : ∀ v, (∀ n, env.toInt v ≠ .ok n) → ∃ f, retryInt env what v = .error f := by
    intro v hv
    unfold retryInt
    split
    · rename_i n hn; exact absurd hn (hv n)
    · exact ⟨_, rfl⟩
  rcases h with ⟨s, h1, h2⟩ | ⟨v, h1, h2, h3, h4⟩
  · rw [h1]
    unfold readRetry
    dsimp only
    rw [exprBody_eq]
    dsimp only
    unfold compile
    cases hx : env.newExpr s with
    | none => exact absurd hx h2
    | some e => exact ⟨_, rfl⟩
  · rw [h1]
    cases v with
    | null => exact absurd rfl h2
    | str s =>
      unfold readRetry
      have : exprBody s = none := by
        cases hx : exprBody s with
        | none => rfl
        | some r => exact absurd (exprBody_some hx ▸ rfl) (h3 r)
      dsimp only
      rw [this]
      exact hint _ h4
    | bool b => exact hint _ h4
    | int n => exact hint _ h4
    | arr l => exact hint _ h4
    | slice l => exact hint _ h4
    | obj o => exact hint _ h4

/-- A description with a task that cannot be created is rejected. -/
theorem rejected_of {env : SerEnv} {rep : DefRep} {r : TaskRep} (hr : r ∈ rep.tasks ∨ ∃ eh, rep.handler = some eh ∧ r ∈ eh.tasks)
    (hno : ∀ b, createTask env rep.modelId r ≠ .ok b) : ∃ msg, newDefinition env rep = .error msg := by
  have hgraph : ∀ {ts ls n g}, r ∈ ts → createGraph env rep.modelId ts ls n ≠ .ok g := by
    intro ts ls n g hmem hg
    unfold createGraph at hg
    obtain ⟨m', hm', _⟩ := bind_ok hg
    obtain ⟨b, hb⟩ := createTasks_all hm' r hmem
    exact hno b hb
  unfold newDefinition
  cases hb : build env rep with
  | error e => cases e <;> exact ⟨_, rfl⟩
  | ok d =>
    exfalso
    unfold build at hb
    obtain ⟨main, hm, hb⟩ := bind_ok hb
    obtain ⟨hh, hh', _⟩ := bind_ok hb
    rcases hr with hr | ⟨eh, heh, hr⟩
    · exact hgraph hr hm
    · unfold createHandler at hh'
      rw [heh] at hh'
      obtain ⟨g, hg, _⟩ := map_ok hh'
      exact hgraph hr hg

/-- **C68** A description in which some task has retry settings that are no numbers is rejected as a whole. -/
theorem C68_rejected (env : SerEnv) (hobj : ∀ m, env.toObject (.obj m) = .ok m) (rep : DefRep) (r : TaskRep)
    (hr : r ∈ rep.tasks ∨ ∃ eh, rep.handler = some eh ∧ r ∈ eh.tasks) (m : AMap String Val)
    (hm : r.settings.get? "retryOnError" = some (.obj m)) (hbad : NoAmount env m "count" ∨ NoAmount env m "interval") :
    ∃ msg, newDefinition env rep = .error msg := by
  refine rejected_of hr fun b hb => ?_
  have hcfg : ∀ x, retryCfg env r.settings ≠ .ok x := by
    intro x hx
    unfold retryCfg at hx
    rw [hm] at hx
    dsimp only at hx
    rw [hobj] at hx
    dsimp only at hx
    obtain ⟨c, hc, hx⟩ := bind_ok hx
    obtain ⟨i, hi, hx⟩ := bind_ok hx
    rcases hbad with hbad | hbad
    · obtain ⟨f, hf⟩ := readRetry_bad hbad "count" "compile retry on error condition error: "
      rw [hf] at hc; cases hc
    · obtain ⟨f, hf⟩ := readRetry_bad hbad "interval" "compile retry on error condition error: "
      rw [hf] at hi; cases hi
  unfold createTask at hb
  split at hb
  · cases hb
  · obtain ⟨l, _, hb⟩ := bind_ok hb
    obtain ⟨rt, hrt, hb⟩ := bind_ok hb
    exact hcfg rt hrt

-- three retries every five seconds; the interval may be an expression, the count a text that the core library reads
example : SaysAmount lenient [("count", .int 3), ("interval", .str "=$flow.pause")] "count" (.number 3) ∧
    SaysAmount lenient [("count", .int 3), ("interval", .str "=$flow.pause")] "interval" (.expr "$flow.pause") := ⟨rfl, rfl, rfl⟩
example : ∃ b, createTask lenient "" { id := "A", settings := [("retryOnError", .obj [("count", .int 3)])] } = .ok b ∧ b.toTask.retry = true :=
  ⟨_, rfl, rfl⟩

/-! ### C30, the tasks -/

theorem lastRep_id {ts : List TaskRep} {t : TaskId} {r : TaskRep} (h : lastRep ts t = some r) : r.id = t := by
  induction ts with
  | nil => cases h
  | cons x xs ih =>
    unfold lastRep at h
    cases hx : lastRep xs t with
    | some y => rw [hx] at h; cases h; exact ih hx
    | none =>
      rw [hx] at h
      by_cases e : x.id = t
      · simp [e] at h; rw [← h]; exact e
      · simp [e] at h

/-- Every task of a built graph was created from its description. -/
theorem built_from {env : SerEnv} {mid : String} {ts : List TaskRep} {ls : List LinkRep} {n : LinkId} {g : BGraph}
    (h : createGraph env mid ts ls n = .ok g) {t : TaskId} {b : BTask} (hb : g.tasks.get? t = some b) :
    ∃ b0, createTask env mid b.rep = .ok b0 ∧ b0.loop = b.loop ∧ b0.retry = b.retry ∧ b0.act = b.act := by
  unfold createGraph at h
  obtain ⟨m, hm, h⟩ := bind_ok h
  obtain ⟨⟨m', links⟩, hl, h⟩ := bind_ok h
  cases h
  have h0 := createTasks_inv (fun b => createTask env mid b.rep = .ok b)
    (fun r b hb => by rw [(createTask_rep hb).1]; exact hb) hm (fun _ _ hx => nomatch hx)
  have h1 := createLinks_get? hl t
  have hb : m'.get? t = some b := hb
  rw [hb] at h1
  cases h2 : AMap.get? m t with
  | none => rw [h2] at h1; cases h1
  | some b0 =>
    rw [h2] at h1
    cases h1
    exact ⟨b0, h0 t b0 h2, rfl, rfl, rfl⟩

/-- What the creation of a task checks and stores. -/
theorem createTask_checked {env : SerEnv} {mid : String} {r : TaskRep} {b : BTask} (h : createTask env mid r = .ok b) :
    (r.type = "" ∨ env.validType mid r.type = true) ∧ env.mapper r.settings = none ∧
    (∀ ref, r.activity = some ref → ∃ a, env.activity r ref = .ok a ∧ b.act = some a) := by
  unfold createTask at h
  split at h
  · cases h
  · rename_i hc
    obtain ⟨l, _, h⟩ := bind_ok h
    obtain ⟨rt, _, h⟩ := bind_ok h
    refine ⟨?_, ?_⟩
    · by_cases ht : r.type = ""
      · exact .inl ht
      · cases hv : env.validType mid r.type with
        | true => exact .inr rfl
        | false => exact absurd ⟨ht, hv⟩ hc
    · split at h
      · cases h
      · rename_i hm
        refine ⟨hm, fun ref hr => ?_⟩
        rw [hr] at h
        dsimp only at h
        split at h
        · cases h
        · rename_i a ha; cases h; exact ⟨a, ha, rfl⟩

/-- **C30** An accepted description has tasks of valid types only, whose settings can be mapped and whose activities can be
created, in the main flow and in the error handler. -/
theorem C30_checked (env : SerEnv) (rep : DefRep) (d : BDef) (h : newDefinition env rep = .ok d) (r : TaskRep)
    (hr : r ∈ rep.tasks ∨ ∃ eh, rep.handler = some eh ∧ r ∈ eh.tasks) :
    (r.type = "" ∨ env.validType rep.modelId r.type = true) ∧ env.mapper r.settings = none ∧
    (∀ ref, r.activity = some ref → ∃ a, env.activity r ref = .ok a) := by
  have key : ∀ {ts ls n g}, r ∈ ts → createGraph env rep.modelId ts ls n = .ok g → ∃ b, createTask env rep.modelId r = .ok b := by
    intro ts ls n g hmem hg
    unfold createGraph at hg
    obtain ⟨m', hm', _⟩ := bind_ok hg
    exact createTasks_all hm' r hmem
  have hc : ∃ b, createTask env rep.modelId r = .ok b := by
    unfold newDefinition at h
    split at h
    · rename_i d' hb
      unfold build at hb
      obtain ⟨main, hm, hb⟩ := bind_ok hb
      obtain ⟨hh, hh', _⟩ := bind_ok hb
      rcases hr with hr | ⟨eh, heh, hr⟩
      · exact key hr hm
      · unfold createHandler at hh'
        rw [heh] at hh'
        obtain ⟨g, hg, _⟩ := map_ok hh'
        exact key hr hg
    · cases h
    · cases h
  obtain ⟨b, hb⟩ := hc
  obtain ⟨h1, h2, h3⟩ := createTask_checked hb
  exact ⟨h1, h2, fun ref hr => (h3 ref hr).imp fun a ha => ha.1⟩

/-- **C30** The tasks that are executed: each has the name and the kind that its description says, and executes the activity of
its description; there is an error handler exactly if one is described. -/
theorem C30_engine_tasks (env : SerEnv) (rep : DefRep) (d : BDef) (h : newDefinition env rep = .ok d) :
    (d.toDef.eh.isSome ↔ rep.handler.isSome) ∧
    ∀ g ts, ((g = d.toDef.main ∧ ts = rep.tasks) ∨ (d.toDef.eh = some g ∧ ∃ eh, rep.handler = some eh ∧ ts = eh.tasks)) →
      ∀ x ∈ g.tasks, ∃ r, lastRep ts x.id = some r ∧ x.name = r.name ∧ (x.kind = .iterator ↔ r.type = "iterator") ∧
        (x.kind = .doWhile ↔ r.type = "doWhile") ∧
        ∀ ref, r.activity = some ref → ∃ a, env.activity r ref = .ok a ∧ x.act = a.kind ∧ x.outputs = a.outputs := by
  have key : ∀ {ts ls n} {g : BGraph}, createGraph env rep.modelId ts ls n = .ok g → ∀ x ∈ g.toGraph.tasks, ∃ r, lastRep ts x.id = some r ∧
      x.name = r.name ∧ (x.kind = .iterator ↔ r.type = "iterator") ∧ (x.kind = .doWhile ↔ r.type = "doWhile") ∧
        ∀ ref, r.activity = some ref → ∃ a, env.activity r ref = .ok a ∧ x.act = a.kind ∧ x.outputs = a.outputs := by
    intro ts ls n g hg x hx
    obtain ⟨⟨t, b⟩, hm, e⟩ := List.mem_map.1 hx
    have hs := createGraph_same hg
    have hb : g.tasks.get? t = some b := AMap.get?_of_mem_nodup hs.distinct hm
    obtain ⟨b0, h0, _, _, h3⟩ := built_from hg hb
    have h4 := hs.tasks t
    rw [hb] at h4
    have h5 : lastRep ts b.rep.id = some b.rep := by
      have h6 : b.rep.id = t := lastRep_id h4.symm
      rw [h6]; exact h4.symm
    subst e
    refine ⟨b.rep, h5, rfl, ?_, ?_, fun ref hr => ?_⟩
    · show taskKind b.rep.type = _ ↔ _
      unfold taskKind
      split
      · rename_i e; simp [e]
      · rename_i e; split <;> simp [e]
    · show taskKind b.rep.type = _ ↔ _
      unfold taskKind
      split
      · rename_i e; simp [e]
      · split
        · rename_i e; simp [e]
        · rename_i e; simp [e]
    · obtain ⟨a, ha, hact⟩ := (createTask_checked h0).2.2 ref hr
      rw [h3] at hact
      refine ⟨a, ha, ?_, ?_⟩
      · show (b.act.map (·.kind)).getD .user = a.kind
        rw [hact]; rfl
      · show (b.act.map (·.outputs)).getD [] = a.outputs
        rw [hact]; rfl
  unfold newDefinition at h
  split at h
  · rename_i d' hb
    cases h
    unfold build at hb
    obtain ⟨main, hm, hb⟩ := bind_ok hb
    obtain ⟨hh, hh', hb⟩ := bind_ok hb
    cases hb
    unfold createHandler at hh'
    cases hd : rep.handler with
    | none =>
      rw [hd] at hh'
      cases hh'
      refine ⟨Iff.rfl, ?_⟩
      rintro g ts (⟨rfl, rfl⟩ | ⟨h1, _⟩)
      · exact key hm
      · cases h1
    | some eh =>
      rw [hd] at hh'
      obtain ⟨g0, hg0, e⟩ := map_ok hh'
      subst e
      refine ⟨by simp [BDef.toDef], ?_⟩
      rintro g ts (⟨rfl, rfl⟩ | ⟨h1, eh', h2, rfl⟩)
      · exact key hm
      · cases h1; cases h2; exact key hg0
  · cases h
  · cases h

/-- The hypotheses hold for the sample. -/
example : (newDefinition lenient sampleRep).toOption.map (fun d => (d.toDef.main.tasks.map (fun x => (x.id, x.kind)), d.toDef.eh.map (fun g => g.tasks.map (·.id)))) =
    some ([("A", .iterator), ("B", .basic)], some ["A", "H"]) := by decide

end Flow
