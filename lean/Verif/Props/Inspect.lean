import Verif.Spec.Inspect
import Verif.Props.Definition

/-
C111: what a program finds out about a loaded flow.
-/

namespace Flow

open Flow.Ser Flow.Spec

namespace Ser

theorem keepExpressions_eq : ∀ ls : List LinkDef, keepExpressions ls = ls.filter fun l => l.type = .expression
  | [] => rfl
  | l :: ls => by
    unfold keepExpressions
    rw [keepExpressions_eq ls, List.filter_cons]
    simp only [decide_eq_true_eq]

theorem typeOf_expression (s : String) : typeOf s = .expression ↔ s = "expression" ∨ s = "1" := by
  constructor
  · intro h
    unfold typeOf at h
    cases hl : typeNames.lookup s with
    | none => rw [hl] at h; cases h
    | some ty =>
      rw [hl] at h
      have ht : ty = .expression := h
      subst ht
      have hm : (s, LinkType.expression) ∈ typeNames := by
        obtain ⟨l1, l2, he, _⟩ := List.lookup_eq_some_iff.1 hl
        rw [he]; simp
      simp only [typeNames, List.mem_cons, Prod.mk.injEq, List.not_mem_nil, or_false, and_true, reduceCtorEq, and_false, false_or] at hm
      exact hm
  · rintro (rfl | rfl) <;> rfl

theorem listLinks_perm (v : MapVisit) {ts : List TaskRep} {ls : List LinkRep} {n : Nat} {g : BGraph} (h : SameGraph ts ls n g) :
    (g.listLinks v).Perm ((ls.zipIdx n).map linkOf) := by
  rw [← h.links]
  exact (v.perm _).map _

theorem expressions_perm (v : MapVisit) {ts : List TaskRep} {ls : List LinkRep} {n : Nat} {g : BGraph} (h : SameGraph ts ls n g) :
    (keepExpressions (g.listLinks v)).Perm (((ls.zipIdx n).filter fun p => p.1.type = "expression" || p.1.type = "1").map linkOf) := by
  rw [keepExpressions_eq]
  refine ((listLinks_perm v h).filter _).trans ?_
  rw [List.filter_map]
  refine List.Perm.of_eq (congrArg _ (List.filter_congr fun p _ => ?_))
  rw [Bool.eq_iff_iff]
  simp only [Function.comp, linkOf, decide_eq_true_eq, Bool.or_eq_true]
  exact Iff.trans (by exact decide_eq_true_iff) (typeOf_expression p.1.type)

theorem lastRep_id : ∀ {ts : List TaskRep} {t : TaskId} {r : TaskRep}, lastRep ts t = some r → r.id = t
  | [], _, _, h => nomatch h
  | x :: xs, t, r, h => by
    unfold lastRep at h
    cases hl : lastRep xs t with
    | some y => rw [hl] at h; cases h; exact lastRep_id hl
    | none =>
      rw [hl] at h
      simp only [Option.orElse_none] at h
      split at h
      · cases h; assumption
      · cases h

theorem key_rep {ts : List TaskRep} {ls : List LinkRep} {n : Nat} {g : BGraph} (h : SameGraph ts ls n g) {t : TaskId} {b : BTask}
    (hg : g.tasks.get? t = some b) : b.rep.id = t := by
  have := h.tasks t
  rw [hg] at this
  exact lastRep_id this.symm

theorem mem_listTasks (v : MapVisit) {ts : List TaskRep} {ls : List LinkRep} {n : Nat} {g : BGraph} (h : SameGraph ts ls n g) (b : BTask) :
    b ∈ g.listTasks v ↔ g.findTask b.rep.id = some b := by
  unfold BGraph.listTasks BGraph.findTask
  rw [List.mem_map]
  constructor
  · rintro ⟨⟨t, b'⟩, h1, rfl⟩
    have h2 := AMap.get?_of_mem_nodup h.distinct ((v.perm _).mem_iff.1 h1)
    rw [key_rep h h2]; exact h2
  · intro h1
    exact ⟨(b.rep.id, b), (v.perm _).mem_iff.2 (AMap.mem_of_get? h1), rfl⟩

/-- The links of a graph are filed under their identifiers. -/
theorem createGraph_keys {env : SerEnv} {mid : String} {ts : List TaskRep} {ls : List LinkRep} {n : LinkId} {g : BGraph}
    (h : createGraph env mid ts ls n = .ok g) : g.links = (ls.zipIdx n).map fun p => (p.2, linkOf p) := by
  unfold createGraph at h
  obtain ⟨m, hm, h⟩ := bind_ok h
  obtain ⟨⟨m', links⟩, hl, h⟩ := bind_ok h
  cases h
  have := createLinks_links hl (fun k hk => nomatch hk)
  simpa using this

theorem linkType_compiled {env : SerEnv} {r : LinkRep} {ty : LinkType} (h : linkType env r = .ok ty) (hr : r.type = "expression" ∨ r.type = "1") :
    r.value ≠ "" ∧ env.newExpr r.value = none := by
  unfold linkType at h
  rw [if_neg (by rcases hr with hr | hr <;> rw [hr] <;> decide), if_pos hr] at h
  by_cases hv : r.value = ""
  · rw [if_pos hv] at h; cases h
  · rw [if_neg hv] at h
    obtain ⟨_, h1, _⟩ := map_ok h
    exact ⟨hv, (compile_ok h1).2⟩

theorem createLinks_compiled {env : SerEnv} : ∀ {rs : List LinkRep} {n : LinkId} {m m' : Tasks} {ls ls' : AMap LinkId LinkDef},
    createLinks env rs n m ls = .ok (m', ls') → ∀ r ∈ rs, r.type = "expression" ∨ r.type = "1" → r.value ≠ "" ∧ env.newExpr r.value = none
  | [], _, _, _, _, _, _, r, hr => nomatch hr
  | r0 :: rs, n, m, m', ls, ls', h, r, hr => by
    intro ht
    unfold createLinks at h
    obtain ⟨⟨l, m1⟩, h1, h⟩ := bind_ok h
    rcases List.mem_cons.1 hr with rfl | hr
    · unfold createLink at h1
      obtain ⟨ty, hty, _⟩ := bind_ok h1
      exact linkType_compiled hty ht
    · exact createLinks_compiled h r hr ht

/-- The two graphs of a loaded flow. -/
theorem loaded {env : SerEnv} {rep : DefRep} {d : BDef} (h : newDefinition env rep = .ok d) :
    createGraph env rep.modelId rep.tasks rep.links 0 = .ok d.main ∧
      (match rep.handler, d.handler with
       | none, none => True
       | some r, some g => createGraph env rep.modelId r.tasks r.links rep.links.length = .ok g
       | _, _ => False) := by
  unfold newDefinition at h
  split at h
  · rename_i d' hb
    cases h
    unfold build at hb
    obtain ⟨main, hm, hb⟩ := bind_ok hb
    obtain ⟨hd, hh, hb⟩ := bind_ok hb
    cases hb
    refine ⟨hm, ?_⟩
    unfold createHandler at hh
    cases hr : rep.handler with
    | none => rw [hr] at hh; cases hh; trivial
    | some r =>
      rw [hr] at hh
      obtain ⟨g, hg, e⟩ := map_ok hh
      subst e
      exact hg
  · cases h
  · cases h

end Ser

/-- **C111** The conditions listed for a loaded flow are exactly the links described as conditional, in the flow and in its error handler,
each once, with its number, its ends and its label, in whatever order the maps are visited. -/
theorem C111_conditions (env : SerEnv) (rep : DefRep) (d : BDef) (v w : MapVisit) (h : newDefinition env rep = .ok d) :
    (d.expressionLinks v w).Perm ((DefRep.conditions rep).map linkOf) := by
  obtain ⟨hm, hh⟩ := C30_graph env rep d h
  unfold BDef.expressionLinks DefRep.conditions DefRep.allLinks
  cases hr : rep.handler with
  | none =>
    rw [hr] at hh
    cases hg : d.handler with
    | some g => rw [hg] at hh; exact hh.elim
    | none =>
      simp only [List.append_nil]
      exact Ser.expressions_perm v hm
  | some r =>
    rw [hr] at hh
    cases hg : d.handler with
    | none => rw [hg] at hh; exact hh.elim
    | some g =>
      rw [hg] at hh
      simp only [List.zipIdx_append, List.filter_append, List.map_append, Nat.zero_add]
      exact (Ser.expressions_perm v hm).append (Ser.expressions_perm w hh)

/-- **C111** Every condition of a loaded flow is given and compiles: a flow is refused if it has a conditional link without condition or with one that
does not compile, also in the error handler and also if the link is never reached. -/
theorem C111_compiled (env : SerEnv) (rep : DefRep) (d : BDef) (h : newDefinition env rep = .ok d) :
    ∀ p ∈ DefRep.conditions rep, p.1.value ≠ "" ∧ env.newExpr p.1.value = none := by
  intro p hp
  obtain ⟨h1, h2⟩ := List.mem_filter.1 hp
  have h2 : p.1.type = "expression" ∨ p.1.type = "1" := by simpa using h2
  have h3 : p.1 ∈ DefRep.allLinks rep := by
    have := List.mem_map_of_mem (f := Prod.fst) h1
    rwa [List.zipIdx_map_fst] at this
  obtain ⟨hm, hh⟩ := Ser.loaded h
  unfold DefRep.allLinks at h3
  rcases List.mem_append.1 h3 with h3 | h3
  · unfold createGraph at hm
    obtain ⟨m, _, hm⟩ := bind_ok hm
    obtain ⟨⟨_, _⟩, hl, _⟩ := bind_ok hm
    exact Ser.createLinks_compiled hl p.1 h3 h2
  · cases hr : rep.handler with
    | none => rw [hr] at h3; cases h3
    | some r =>
      rw [hr] at h3 hh
      cases hg : d.handler with
      | none => rw [hg] at hh; exact hh.elim
      | some g =>
        rw [hg] at hh
        simp only at h3 hh
        unfold createGraph at hh
        obtain ⟨m, _, hh⟩ := bind_ok hh
        obtain ⟨⟨_, _⟩, hl, _⟩ := bind_ok hh
        exact Ser.createLinks_compiled hl p.1 h3 h2

/-- **C111** The tasks listed for a loaded flow are the described ones, each identifier once (the last description counts), and exactly those
that are found by their identifier; the same for the error handler. -/
theorem C111_tasks (env : SerEnv) (rep : DefRep) (d : BDef) (v : MapVisit) (h : newDefinition env rep = .ok d) :
    (((d.main.listTasks v).map (·.rep.id)).Nodup ∧ (∀ b, b ∈ d.main.listTasks v ↔ d.main.findTask b.rep.id = some b) ∧
      ∀ r, (∃ b ∈ d.main.listTasks v, b.rep = r) ↔ lastRep rep.tasks r.id = some r) ∧
    ∀ x g, rep.handler = some x → d.handler = some g → ((g.listTasks v).map (·.rep.id)).Nodup ∧
      (∀ b, b ∈ g.listTasks v ↔ g.findTask b.rep.id = some b) ∧ ∀ r, (∃ b ∈ g.listTasks v, b.rep = r) ↔ lastRep x.tasks r.id = some r := by
  have key : ∀ {ts : List TaskRep} {ls : List LinkRep} {n : Nat} {g : BGraph}, SameGraph ts ls n g →
      ((g.listTasks v).map (·.rep.id)).Nodup ∧ (∀ b, b ∈ g.listTasks v ↔ g.findTask b.rep.id = some b) ∧
        ∀ r, (∃ b ∈ g.listTasks v, b.rep = r) ↔ lastRep ts r.id = some r := by
    intro ts ls n g hs
    refine ⟨?_, Ser.mem_listTasks v hs, fun r => ⟨?_, fun hl => ?_⟩⟩
    · unfold BGraph.listTasks
      rw [List.map_map]
      refine (((v.perm g.tasks).map _).nodup_iff).2 ?_
      have : g.tasks.map ((fun b : BTask => b.rep.id) ∘ fun p => p.2) = AMap.keys g.tasks := by
        unfold AMap.keys
        exact List.map_congr_left fun p hp => Ser.key_rep hs (AMap.get?_of_mem_nodup hs.distinct hp)
      rw [this]
      exact hs.distinct
    · rintro ⟨b, hb, rfl⟩
      have h1 := (Ser.mem_listTasks v hs b).1 hb
      rw [← hs.tasks]
      unfold BGraph.findTask at h1
      rw [h1]; rfl
    · have h1 := hs.tasks r.id
      rw [hl] at h1
      obtain ⟨b, h2, h3⟩ := Option.map_eq_some_iff.1 h1
      refine ⟨b, (Ser.mem_listTasks v hs b).2 ?_, h3⟩
      unfold BGraph.findTask
      rw [h3]; exact h2
  obtain ⟨hm, hh⟩ := C30_graph env rep d h
  refine ⟨key hm, fun x g hx hg => ?_⟩
  rw [hx, hg] at hh
  exact key hh

/-- **C111** The links listed for the flow itself are the described ones and are found by their number. -/
theorem C111_links (env : SerEnv) (rep : DefRep) (d : BDef) (v : MapVisit) (h : newDefinition env rep = .ok d) :
    (d.main.listLinks v).Perm (rep.links.zipIdx.map linkOf) ∧ ∀ n, d.getLink n = rep.links[n]?.map fun r => linkOf (r, n) := by
  refine ⟨Ser.listLinks_perm v (C30_graph env rep d h).1, fun n => ?_⟩
  have hk := Ser.createGraph_keys (Ser.loaded h).1
  have hn : (AMap.keys d.main.links).Nodup := by
    rw [hk]
    unfold AMap.keys
    rw [List.map_map]
    show ((rep.links.zipIdx).map Prod.snd).Nodup
    rw [List.zipIdx_map_snd]
    exact List.nodup_range'
  unfold BDef.getLink
  cases hr : rep.links[n]? with
  | some r =>
    refine AMap.get?_of_mem_nodup hn ?_
    rw [hk]
    exact List.mem_map.2 ⟨(r, n), List.mem_zipIdx_iff_getElem?.2 hr, rfl⟩
  | none =>
    rw [Option.map_none, AMap.get?_eq_none_iff]
    rw [hk]
    unfold AMap.keys
    rw [List.map_map]
    intro hc
    obtain ⟨p, h1, h2⟩ := List.mem_map.1 hc
    have h3 := List.mem_zipIdx_iff_getElem?.1 h1
    have h2 : p.2 = n := h2
    rw [h2, hr] at h3
    cases h3

/-- C111 fails for error handlers: no link of an error handler is found by its number, although its number is its own and, if it has a condition, it is
listed. -/
theorem C111_negation (env : SerEnv) (rep : DefRep) (d : BDef) (x : HandlerRep) (h : newDefinition env rep = .ok d) (hx : rep.handler = some x)
    (v w : MapVisit) :
    (∀ n, d.getLink (rep.links.length + n) = none) ∧
    ∀ n r, x.links[n]? = some r → r.type = "expression" → linkOf (r, rep.links.length + n) ∈ d.expressionLinks v w := by
  refine ⟨fun n => ?_, fun n r hr ht => ?_⟩
  · rw [(C111_links env rep d v h).2, List.getElem?_eq_none (by omega)]; rfl
  · refine (C111_conditions env rep d v w h).mem_iff.2 (List.mem_map.2 ⟨(r, rep.links.length + n), ?_, rfl⟩)
    unfold DefRep.conditions DefRep.allLinks
    rw [hx]
    refine List.mem_filter.2 ⟨List.mem_zipIdx_iff_getElem?.2 ?_, by simp [ht]⟩
    simp only [List.getElem?_append_right (Nat.le_add_right _ _), Nat.add_sub_cancel_left]
    exact hr

/-- Two conditions and an error link; the error handler has a third condition. -/
def conditional : DefRep :=
  { name := "f", tasks := [{ id := "A" }, { id := "B" }, { id := "C" }]
    links := [{ to := "B", src := "A", type := "expression", value := "$.x > 1" }, { to := "C", src := "B", type := "error" },
      { to := "C", src := "A", type := "1", value := "$.x < 1" }]
    handler := some { tasks := [{ id := "H" }, { id := "I" }], links := [{ to := "I", src := "H", type := "expression", value := "$error.code == 1" }] } }

/-- Maps visited from the end. -/
def backwards : MapVisit := ⟨List.reverse, List.reverse_perm⟩

-- the hypotheses hold; what is listed
example : (newDefinition lenient conditional).toOption.map (fun d =>
    ((d.expressionLinks backwards backwards).map (·.id), (d.main.listTasks backwards).map (·.rep.id), d.getLink 3)) =
    some ([2, 0, 3], ["C", "B", "A"], none) := by rfl

end Flow
