import Verif.Spec.Definition

/- Helper lemmas about the construction of definitions. -/

namespace Flow.Ser

open Flow.Spec

theorem bind_ok {α β : Type} {x : Build α} {f : α → Build β} {b : β} (h : (x >>= f) = .ok b) :
    ∃ a, x = .ok a ∧ f a = .ok b := by
  cases x with
  | error e => cases h
  | ok a => exact ⟨a, rfl, h⟩

theorem map_ok {α β : Type} {x : Build α} {f : α → β} {b : β} (h : Except.map f x = .ok b) :
    ∃ a, x = .ok a ∧ f a = b := by
  cases x with
  | error e => cases h
  | ok a => exact ⟨a, rfl, by simpa [Except.map] using h⟩

theorem compile_ok {env : SerEnv} {w s b : String} (h : compile env w s = .ok b) : b = s ∧ env.newExpr s = none := by
  unfold compile at h
  cases hn : env.newExpr s with
  | none => rw [hn] at h; cases h; exact ⟨rfl, rfl⟩
  | some m => rw [hn] at h; cases h

theorem linkType_ok {env : SerEnv} {r : LinkRep} {ty : LinkType} (h : linkType env r = .ok ty) :
    ty = typeOf r.type := by
  unfold linkType at h
  split at h
  · rename_i hs
    cases h
    rcases hs with hs | hs | hs | hs <;> rw [hs] <;> rfl
  · rename_i h1
    split at h
    · rename_i hs
      split at h
      · cases h
      · obtain ⟨_, _, h2⟩ := map_ok h
        subst h2
        rcases hs with hs | hs <;> rw [hs] <;> rfl
    · rename_i h2
      split at h
      · rename_i hs
        cases h
        rcases hs with hs | hs <;> rw [hs] <;> rfl
      · rename_i h3
        split at h
        · rename_i hs
          cases h
          rcases hs with hs | hs <;> rw [hs] <;> rfl
        · rename_i h4
          split at h
          · rename_i hs
            cases h
            rcases hs with hs | hs <;> rw [hs] <;> rfl
          · rename_i h5
            cases h
            simp only [not_or] at h1 h2 h3 h4 h5
            have hb : ∀ {a : String}, r.type ≠ a → (r.type == a) = false := fun ha => beq_eq_false_iff_ne.2 ha
            simp only [typeOf, typeNames, List.lookup_cons, hb h1.1, hb h1.2.1, hb h1.2.2.1, hb h1.2.2.2, hb h2.1,
              hb h2.2, hb h3.1, hb h3.2, hb h4.1, hb h4.2, hb h5.1, hb h5.2, List.lookup_nil, Option.getD]

theorem get?_addFrom (m : Tasks) (t u : TaskId) (l : LinkDef) :
    (addFrom m t l).get? u =
      (m.get? u).map (fun b => if t = u then { b with fromLinks := b.fromLinks ++ [l] } else b) := by
  unfold addFrom
  cases h : AMap.get? m t with
  | none =>
    by_cases e : t = u
    · subst e; simp [h]
    · simp [e]
  | some b =>
    simp only [AMap.get?_set]
    by_cases e : t = u
    · subst e; simp [h]
    · simp [e]

theorem get?_addTo (m : Tasks) (t u : TaskId) (l : LinkDef) :
    (addTo m t l).get? u =
      (m.get? u).map (fun b => if t = u then { b with toLinks := b.toLinks ++ [l] } else b) := by
  unfold addTo
  cases h : AMap.get? m t with
  | none =>
    by_cases e : t = u
    · subst e; simp [h]
    · simp [e]
  | some b =>
    simp only [AMap.get?_set]
    by_cases e : t = u
    · subst e; simp [h]
    · simp [e]

theorem nodup_addFrom {m : Tasks} (h : m.keys.Nodup) (t : TaskId) (l : LinkDef) : (addFrom m t l).keys.Nodup := by
  unfold addFrom
  split
  · exact h
  · exact AMap.nodup_keys_set h _ _

theorem nodup_addTo {m : Tasks} (h : m.keys.Nodup) (t : TaskId) (l : LinkDef) : (addTo m t l).keys.Nodup := by
  unfold addTo
  split
  · exact h
  · exact AMap.nodup_keys_set h _ _

/-- What `createLink` does when it succeeds. -/
theorem createLink_ok {env : SerEnv} {m m' : Tasks} {r : LinkRep} {id : LinkId} {l : LinkDef}
    (h : createLink env m r id = .ok (l, m')) :
    l = linkOf (r, id) ∧ (m.get? r.to).isSome ∧ (m.get? r.src).isSome ∧
      m' = addTo (addFrom m r.to l) r.src l := by
  unfold createLink at h
  obtain ⟨ty, hty, h⟩ := bind_ok h
  have := linkType_ok hty
  subst this
  split at h
  · cases h
  · rename_i h1
    split at h
    · cases h
    · rename_i h2
      cases h
      refine ⟨rfl, ?_, ?_, rfl⟩
      · cases hx : AMap.get? m r.to with
        | none => rw [hx] at h1; exact absurd rfl h1
        | some _ => rfl
      · cases hx : AMap.get? m r.src with
        | none => rw [hx] at h2; exact absurd rfl h2
        | some _ => rfl

/-- The effect of the loop over the links on one task. -/
theorem createLinks_get? {env : SerEnv} : ∀ {rs : List LinkRep} {n : LinkId} {m m' : Tasks} {ls ls' : AMap LinkId LinkDef},
    createLinks env rs n m ls = .ok (m', ls') → ∀ t : TaskId,
      m'.get? t = (m.get? t).map (fun b => { b with
        fromLinks := b.fromLinks ++ incoming rs n t, toLinks := b.toLinks ++ outgoing rs n t })
  | [], n, m, m', ls, ls', h, t => by
    cases h
    cases hb : AMap.get? m t with
    | none => rfl
    | some b => simp [incoming, outgoing]
  | r :: rs, n, m, m', ls, ls', h, t => by
    unfold createLinks at h
    obtain ⟨⟨l, m1⟩, h1, h⟩ := bind_ok h
    obtain ⟨hl, _, _, hm⟩ := createLink_ok h1
    rw [createLinks_get? h t, hm, get?_addTo, get?_addFrom]
    subst hl
    cases hb : AMap.get? m t with
    | none => rfl
    | some b =>
      simp only [Option.map_some, Option.some.injEq, incoming, outgoing, List.zipIdx_cons, List.map_cons,
        List.filter_cons]
      by_cases e1 : r.to = t <;> by_cases e2 : r.src = t <;> simp [e1, e2, linkOf]

theorem createLinks_nodup {env : SerEnv} : ∀ {rs : List LinkRep} {n : LinkId} {m m' : Tasks} {ls ls' : AMap LinkId LinkDef},
    createLinks env rs n m ls = .ok (m', ls') → m.keys.Nodup → m'.keys.Nodup
  | [], _, _, _, _, _, h, hn => by cases h; exact hn
  | r :: rs, n, m, m', ls, ls', h, hn => by
    unfold createLinks at h
    obtain ⟨⟨l, m1⟩, h1, h⟩ := bind_ok h
    obtain ⟨_, _, _, hm⟩ := createLink_ok h1
    exact createLinks_nodup h (hm ▸ nodup_addTo (nodup_addFrom hn _ _) _ _)

theorem set_append {K V : Type} [DecidableEq K] {m : AMap K V} {k : K} {v : V} (h : k ∉ m.keys) :
    m.set k v = m ++ [(k, v)] := by
  induction m with
  | nil => rfl
  | cons p m ih =>
    obtain ⟨a, b⟩ := p
    simp only [AMap.keys, List.map_cons, List.mem_cons, not_or] at h
    simp only [AMap.set, Ne.symm h.1, if_false, List.cons_append, ih h.2]

/-- The links collected by the loop. -/
theorem createLinks_links {env : SerEnv} : ∀ {rs : List LinkRep} {n : LinkId} {m m' : Tasks} {ls ls' : AMap LinkId LinkDef},
    createLinks env rs n m ls = .ok (m', ls') → (∀ k ∈ ls.keys, k < n) →
      ls' = ls ++ (rs.zipIdx n).map (fun p => (p.2, linkOf p))
  | [], _, _, _, _, _, h, _ => by cases h; simp
  | r :: rs, n, m, m', ls, ls', h, hk => by
    unfold createLinks at h
    obtain ⟨⟨l, m1⟩, h1, h⟩ := bind_ok h
    obtain ⟨hl, _, _, hm⟩ := createLink_ok h1
    have hset : ls.set l.id l = ls ++ [(n, linkOf (r, n))] := by
      subst hl
      exact set_append (k := n) (fun hmem => absurd (hk _ hmem) (Nat.lt_irrefl _))
    have h : createLinks env rs (n + 1) m1 (ls.set l.id l) = .ok (m', ls') := h
    rw [hset] at h
    have hk' : ∀ k ∈ (AMap.keys (ls ++ [(n, linkOf (r, n))])), k < n + 1 := by
      intro k hkm
      simp only [AMap.keys, List.map_append, List.map_cons, List.map_nil, List.mem_append, List.mem_singleton] at hkm
      rcases hkm with hkm | hkm
      · exact Nat.lt_succ_of_lt (hk k hkm)
      · exact hkm ▸ Nat.lt_succ_self n
    rw [createLinks_links h hk']
    simp [List.zipIdx_cons]

/-- Both ends of every accepted link are known. -/
theorem createLinks_ends {env : SerEnv} : ∀ {rs : List LinkRep} {n : LinkId} {m m' : Tasks} {ls ls' : AMap LinkId LinkDef},
    createLinks env rs n m ls = .ok (m', ls') → ∀ r ∈ rs, (m.get? r.to).isSome ∧ (m.get? r.src).isSome
  | [], _, _, _, _, _, _, r, hr => nomatch hr
  | r0 :: rs, n, m, m', ls, ls', h, r, hr => by
    unfold createLinks at h
    obtain ⟨⟨l, m1⟩, h1, h⟩ := bind_ok h
    obtain ⟨hl, a, b, hm⟩ := createLink_ok h1
    rcases List.mem_cons.1 hr with e | hr
    · subst e; exact ⟨a, b⟩
    · have := createLinks_ends h r hr
      simp only [hm, get?_addTo, get?_addFrom, Option.isSome_map] at this
      exact this

theorem createTask_rep {env : SerEnv} {mid : String} {r : TaskRep} {b : BTask} (h : createTask env mid r = .ok b) :
    b.rep = r ∧ b.fromLinks = [] ∧ b.toLinks = [] ∧ (r.type = "" ∨ env.validType mid r.type = true) := by
  unfold createTask at h
  split at h
  · cases h
  · rename_i hv
    have hv' : r.type = "" ∨ env.validType mid r.type = true := by
      by_cases e : r.type = ""
      · exact Or.inl e
      · refine Or.inr ?_
        cases hx : env.validType mid r.type with
        | true => rfl
        | false => exact absurd ⟨e, hx⟩ hv
    obtain ⟨l, _, h⟩ := bind_ok h
    obtain ⟨rt, _, h⟩ := bind_ok h
    split at h
    · cases h
    · split at h
      · cases h; exact ⟨rfl, rfl, rfl, hv'⟩
      · split at h
        · cases h
        · cases h; exact ⟨rfl, rfl, rfl, hv'⟩

theorem createTasks_get? {env : SerEnv} {mid : String} : ∀ {rs : List TaskRep} {m m' : Tasks},
    createTasks env mid rs m = .ok m' → ∀ t : TaskId,
      (m'.get? t).map (·.rep) = (lastRep rs t).orElse (fun _ => (m.get? t).map (·.rep))
  | [], m, m', h, t => by cases h; rfl
  | r :: rs, m, m', h, t => by
    unfold createTasks at h
    obtain ⟨b, hb, h⟩ := bind_ok h
    obtain ⟨hr, _⟩ := createTask_rep hb
    rw [createTasks_get? h t, AMap.get?_set]
    simp only [lastRep]
    cases lastRep rs t with
    | some x => rfl
    | none =>
      by_cases e : r.id = t
      · simp [e, hr]
      · simp [e]

theorem createTasks_nodup {env : SerEnv} {mid : String} : ∀ {rs : List TaskRep} {m m' : Tasks},
    createTasks env mid rs m = .ok m' → m.keys.Nodup → m'.keys.Nodup
  | [], _, _, h, hn => by cases h; exact hn
  | r :: rs, m, m', h, hn => by
    unfold createTasks at h
    obtain ⟨b, hb, h⟩ := bind_ok h
    exact createTasks_nodup h (AMap.nodup_keys_set hn _ _)

/-- Every described task was created without a fault. -/
theorem createTasks_all {env : SerEnv} {mid : String} : ∀ {rs : List TaskRep} {m m' : Tasks},
    createTasks env mid rs m = .ok m' → ∀ r ∈ rs, ∃ b, createTask env mid r = .ok b
  | [], _, _, _, r, hr => nomatch hr
  | r0 :: rs, m, m', h, r, hr => by
    unfold createTasks at h
    obtain ⟨b, hb, h⟩ := bind_ok h
    rcases List.mem_cons.1 hr with e | hr
    · subst e; exact ⟨b, hb⟩
    · exact createTasks_all h r hr

/-- Every task in the map stems from a description or was there before. -/
theorem createTasks_inv {env : SerEnv} {mid : String} (P : BTask → Prop)
    (hP : ∀ r b, createTask env mid r = .ok b → P b) : ∀ {rs : List TaskRep} {m m' : Tasks},
    createTasks env mid rs m = .ok m' → (∀ t b, m.get? t = some b → P b) → ∀ t b, m'.get? t = some b → P b
  | [], _, _, h, hm => by cases h; exact hm
  | r :: rs, m, m', h, hm => by
    unfold createTasks at h
    obtain ⟨b, hb, h⟩ := bind_ok h
    refine createTasks_inv P hP h ?_
    intro t b' hb'
    rw [AMap.get?_set] at hb'
    split at hb'
    · cases hb'; exact hP _ _ hb
    · exact hm _ _ hb'

theorem createGraph_same {env : SerEnv} {mid : String} {ts : List TaskRep} {ls : List LinkRep} {n : LinkId}
    {g : BGraph} (h : createGraph env mid ts ls n = .ok g) : SameGraph ts ls n g := by
  unfold createGraph at h
  obtain ⟨m, hm, h⟩ := bind_ok h
  obtain ⟨⟨m', links⟩, hl, h⟩ := bind_ok h
  cases h
  have hget := createLinks_get? hl
  have hempty : ∀ t b, m.get? t = some b → b.fromLinks = [] ∧ b.toLinks = [] :=
    createTasks_inv (fun b => b.fromLinks = [] ∧ b.toLinks = [])
      (fun r b hb => ⟨(createTask_rep hb).2.1, (createTask_rep hb).2.2.1⟩) hm (fun _ _ hx => nomatch hx)
  refine ⟨?_, createLinks_nodup hl (createTasks_nodup hm List.nodup_nil), ?_, ?_, ?_⟩
  · intro t
    have := createTasks_get? hm t
    simp only [AMap.get?_nil] at this
    show (AMap.get? m' t).map (·.rep) = _
    rw [hget t, Option.map_map]
    refine Eq.trans ?_ (this.trans ?_)
    · rfl
    · cases lastRep ts t <;> rfl
  · show links.map (·.2) = _
    rw [createLinks_links hl (fun k hk => nomatch hk)]
    simp
  · intro t b hb
    have hb' := (hget t).symm.trans hb
    cases hx : AMap.get? m t with
    | none => rw [hx] at hb'; cases hb'
    | some b0 => rw [hx] at hb'; cases hb'; simp [(hempty t b0 hx).2]
  · intro t b hb
    have hb' := (hget t).symm.trans hb
    cases hx : AMap.get? m t with
    | none => rw [hx] at hb'; cases hb'
    | some b0 => rw [hx] at hb'; cases hb'; simp [(hempty t b0 hx).1]

theorem lastRep_isSome {ts : List TaskRep} {t : TaskId} : (lastRep ts t).isSome ↔ ∃ r ∈ ts, r.id = t := by
  induction ts with
  | nil => simp [lastRep]
  | cons r rs ih =>
    simp only [lastRep]
    cases h : lastRep rs t with
    | some x =>
      have := ih.1 (by rw [h]; rfl)
      obtain ⟨r', hr', e⟩ := this
      simp only [Option.orElse, Option.isSome_some, true_iff]
      exact ⟨r', List.mem_cons_of_mem _ hr', e⟩
    | none =>
      have hno : ¬ ∃ r ∈ rs, r.id = t := fun hc => by have := ih.2 hc; rw [h] at this; cases this
      by_cases e : r.id = t
      · simp [e]
      · simp [e]
        intro r' hr' e'
        exact hno ⟨r', hr', e'⟩

end Flow.Ser
