import Verif.Spec.Activity

namespace Flow.Act

open Spec Ser

variable {env : ActEnv} {ref : String}

/-! ### Settings -/

theorem resolveSettings_ok : ∀ {l : AMap String Val} (m : AMap String Val), l.keys.Nodup → (∀ p ∈ l, (env.resolve ref p.1 p.2).2 = none) →
    (resolveSettings env ref l m).2 = none ∧
    (∀ n v, l.get? n = some v → (resolveSettings env ref l m).1.get? n = some (env.resolve ref n v).1) ∧
    ∀ n, l.get? n = none → (resolveSettings env ref l m).1.get? n = m.get? n := by
  intro l
  induction l with
  | nil => intro m _ _; exact ⟨rfl, (fun n v h => nomatch h), fun _ _ => rfl⟩
  | cons p l ih =>
    obtain ⟨k, x⟩ := p
    intro m hn hr
    have h0 := hr (k, x) (List.mem_cons_self ..)
    have hn := List.nodup_cons.1 hn
    have he : resolveSettings env ref ((k, x) :: l) m = resolveSettings env ref l (m.set k (env.resolve ref k x).1) := by
      rw [resolveSettings]
      generalize hq : env.resolve ref k x = q
      rw [hq] at h0
      obtain ⟨w, e⟩ := q
      have h0 : e = none := h0
      subst h0; rfl
    obtain ⟨h1, h2, h3⟩ := ih (m.set k (env.resolve ref k x).1) hn.2 fun p hp => hr p (List.mem_cons_of_mem _ hp)
    rw [he]
    refine ⟨h1, fun n v hv => ?_, fun n hv => ?_⟩
    · unfold AMap.get? at hv
      split at hv
      · rename_i e
        cases hv; subst e
        rw [h3 k (AMap.get?_eq_none_iff.2 hn.1), AMap.get?_set_self]
      · exact h2 n v hv
    · unfold AMap.get? at hv
      split at hv
      · cases hv
      · rename_i e
        rw [h3 n hv, AMap.get?_set_ne _ _ e]

/-! ### Reconfiguration -/

theorem changeable_iff {c : ActCfg} : (¬ c.settings = [] ∧ canReconfigure env c = true) ↔ Changeable env c := by
  unfold Changeable canReconfigure
  refine and_congr_right fun _ => ?_
  cases env.get c.ref with
  | none => exact ⟨(fun h => nomatch h), (fun ⟨_, h, _⟩ => nomatch h)⟩
  | some d => exact ⟨fun h => ⟨d, rfl, h⟩, fun ⟨_, h, h'⟩ => by cases h; exact h'⟩

theorem tell_tasks (s : RSt) (id : TaskId) (c : ActCfg) (r : AMap String Val × Option String) :
    (tell env s id c r).tasks = s.tasks.set id (some { c with settings := r.1 }) ∧ (tell env s id c r).panicked = s.panicked := by
  unfold tell
  cases r.2 <;> exact ⟨rfl, rfl⟩

/-- One description: nothing changes, or the settings of one task. -/
theorem reconfigureTask_cases (s : RSt) (r : TaskActRep) :
    (reconfigureTask env s r).tasks = s.tasks ∨
    ∃ c m, s.tasks.get? r.id = some (some c) ∧ Changeable env c ∧ (reconfigureTask env s r).tasks = s.tasks.set r.id (some { c with settings := m }) := by
  unfold reconfigureTask
  split
  · exact .inl rfl
  · exact .inl rfl
  · rename_i c hc
    split
    · exact .inl rfl
    · rename_i hs
      unfold reconfigureSettings
      split
      · rename_i hr
        split
        · exact .inl rfl
        · exact .inr ⟨c, _, hc, changeable_iff.1 ⟨hs, hr⟩, (tell_tasks ..).1⟩
      · exact .inl rfl

theorem reconfigureTask_others (s : RSt) (r : TaskActRep) {t : TaskId} (h : r.id ≠ t) : (reconfigureTask env s r).tasks.get? t = s.tasks.get? t := by
  rcases reconfigureTask_cases (env := env) s r with h1 | ⟨c, m, _, _, h1⟩
  · rw [h1]
  · rw [h1, AMap.get?_set_ne _ _ h]

theorem reconfigureTask_fixed (s : RSt) (r : TaskActRep) {t : TaskId} {c : ActCfg} (h : s.tasks.get? t = some (some c)) (hc : ¬ Changeable env c) :
    (reconfigureTask env s r).tasks.get? t = some (some c) := by
  rcases reconfigureTask_cases (env := env) s r with h1 | ⟨c', m, h2, h3, h1⟩
  · rw [h1]; exact h
  · by_cases e : r.id = t
    · subst e; rw [h] at h2; cases h2; exact absurd h3 hc
    · rw [h1, AMap.get?_set_ne _ _ e]; exact h

theorem reconfigureTasks_others (rs : List TaskActRep) : ∀ (s : RSt) {t : TaskId}, t ∉ rs.map (·.id) →
    (reconfigureTasks env rs s).tasks.get? t = s.tasks.get? t := by
  induction rs with
  | nil => intro s t _; rfl
  | cons r rs ih =>
    intro s t ht
    unfold reconfigureTasks
    split
    · rfl
    · rw [ih _ fun h => ht (List.mem_cons_of_mem _ h)]
      exact reconfigureTask_others s r fun e => ht (by rw [← e]; exact List.mem_cons_self ..)

theorem reconfigureTasks_fixed (rs : List TaskActRep) : ∀ (s : RSt) {t : TaskId} {c : ActCfg}, s.tasks.get? t = some (some c) → ¬ Changeable env c →
    (reconfigureTasks env rs s).tasks.get? t = some (some c) := by
  induction rs with
  | nil => intro s t c h _; exact h
  | cons r rs ih =>
    intro s t c h hc
    unfold reconfigureTasks
    split
    · exact h
    · exact ih _ (reconfigureTask_fixed s r h hc) hc

/-- Whatever happens, only settings change. -/
theorem reconfigureTask_only (s : RSt) (r : TaskActRep) (t : TaskId) :
    (s.tasks.get? t = none → (reconfigureTask env s r).tasks.get? t = none) ∧
    (s.tasks.get? t = some none → (reconfigureTask env s r).tasks.get? t = some none) ∧
    ∀ c, s.tasks.get? t = some (some c) → ∃ m, (reconfigureTask env s r).tasks.get? t = some (some { c with settings := m }) := by
  rcases reconfigureTask_cases (env := env) s r with h1 | ⟨c', m, h2, h3, h1⟩
  · rw [h1]; exact ⟨id, id, fun c h => ⟨c.settings, h⟩⟩
  · rw [h1]
    by_cases e : r.id = t
    · subst e
      rw [h2, AMap.get?_set_self]
      exact ⟨(fun h => nomatch h), (fun h => nomatch h), fun c h => by cases h; exact ⟨m, rfl⟩⟩
    · rw [AMap.get?_set_ne _ _ e]
      exact ⟨id, id, fun c h => ⟨c.settings, h⟩⟩

theorem reconfigureTasks_only (rs : List TaskActRep) : ∀ (s : RSt) (t : TaskId),
    (s.tasks.get? t = none → (reconfigureTasks env rs s).tasks.get? t = none) ∧
    (s.tasks.get? t = some none → (reconfigureTasks env rs s).tasks.get? t = some none) ∧
    ∀ c, s.tasks.get? t = some (some c) → ∃ m, (reconfigureTasks env rs s).tasks.get? t = some (some { c with settings := m }) := by
  induction rs with
  | nil => intro s t; exact ⟨id, id, fun c h => ⟨c.settings, h⟩⟩
  | cons r rs ih =>
    intro s t
    unfold reconfigureTasks
    split
    · exact ⟨id, id, fun c h => ⟨c.settings, h⟩⟩
    · obtain ⟨a1, a2, a3⟩ := reconfigureTask_only (env := env) s r t
      obtain ⟨b1, b2, b3⟩ := ih (reconfigureTask env s r) t
      refine ⟨b1 ∘ a1, b2 ∘ a2, fun c h => ?_⟩
      obtain ⟨m, h1⟩ := a3 c h
      obtain ⟨m', h2⟩ := b3 _ h1
      exact ⟨m', h2⟩

/-- A description that fits. -/
theorem reconfigureTask_named {s : RSt} {r : TaskActRep} {c : ActCfg} {a : ActRep} (h : s.tasks.get? r.id = some (some c)) (hc : Changeable env c)
    (ha : r.act = some a) : reconfigureTask env s r = tell env s r.id c (resolveSettings env c.ref a.settings c.settings) := by
  have h1 := changeable_iff.2 hc
  unfold reconfigureTask
  rw [h]
  dsimp only
  rw [if_neg h1.1]
  unfold reconfigureSettings
  rw [if_pos h1.2, ha]

theorem replaced_of {c : ActCfg} {a : ActRep} (hn : a.settings.keys.Nodup) (hr : ∀ p ∈ a.settings, (env.resolve c.ref p.1 p.2).2 = none) :
    Replaced env c a.settings { c with settings := (resolveSettings env c.ref a.settings c.settings).1 } := by
  obtain ⟨_, h2, h3⟩ := resolveSettings_ok (env := env) (ref := c.ref) c.settings hn hr
  exact ⟨rfl, h2, h3⟩

theorem reconfigureTask_calm {s : RSt} {r : TaskActRep} (hp : s.panicked = false) (h1 : s.tasks.get? r.id ≠ some none)
    (h2 : ∀ c, s.tasks.get? r.id = some (some c) → Changeable env c → ∃ a, r.act = some a) : (reconfigureTask env s r).panicked = false := by
  unfold reconfigureTask
  split
  · exact hp
  · rename_i h; exact absurd h h1
  · rename_i c hc
    split
    · exact hp
    · rename_i hs
      unfold reconfigureSettings
      split
      · rename_i hr
        obtain ⟨a, ha⟩ := h2 c hc (changeable_iff.1 ⟨hs, hr⟩)
        rw [ha]
        exact (tell_tasks ..).2.trans hp
      · exact hp

theorem fits_tail {m : Acts} {r : TaskActRep} {rs : List TaskActRep} (f : Fits env m (r :: rs)) (m' : Acts) (hm : ∀ t, t ≠ r.id → m'.get? t = m.get? t) :
    Fits env m' rs := by
  have hn := List.nodup_cons.1 f.ids
  have ne : ∀ x ∈ rs, x.id ≠ r.id := fun x hx e => hn.1 (List.mem_map.2 ⟨x, hx, e⟩)
  refine ⟨hn.2, fun x hx => ?_, fun x hx c h => ?_⟩
  · rw [hm _ (ne x hx)]; exact f.act x (List.mem_cons_of_mem _ hx)
  · rw [hm _ (ne x hx)] at h; exact f.given x (List.mem_cons_of_mem _ hx) c h

theorem reconfigureTasks_applied (rs : List TaskActRep) : ∀ (s : RSt), s.panicked = false → Fits env s.tasks rs →
    (reconfigureTasks env rs s).panicked = false ∧ Applied env s.tasks rs (reconfigureTasks env rs s).tasks := by
  induction rs with
  | nil => intro s hp _; exact ⟨hp, fun _ h => (nomatch h), fun _ _ h _ => h, fun _ _ => rfl⟩
  | cons r rs ih =>
    intro s hp f
    have hn := List.nodup_cons.1 f.ids
    have ho : ∀ t, t ≠ r.id → (reconfigureTask env s r).tasks.get? t = s.tasks.get? t := fun t ht => reconfigureTask_others s r (Ne.symm ht)
    have hp' : (reconfigureTask env s r).panicked = false := by
      refine reconfigureTask_calm hp (f.act r (List.mem_cons_self ..)) fun c h hc => ?_
      obtain ⟨a, h1, _⟩ := f.given r (List.mem_cons_self ..) c h hc
      exact ⟨a, h1⟩
    obtain ⟨h1, h2⟩ := ih (reconfigureTask env s r) hp' (fits_tail f _ ho)
    have he : reconfigureTasks env (r :: rs) s = reconfigureTasks env rs (reconfigureTask env s r) := by
      conv => lhs; unfold reconfigureTasks
      rw [hp]; rfl
    refine ⟨by rw [he]; exact h1, fun x hx c h hc => ?_, fun t c h hc => reconfigureTasks_fixed _ s h hc, fun t ht => reconfigureTasks_others _ s ht⟩
    rw [he]
    rcases List.mem_cons.1 hx with e | hx
    · subst e
      obtain ⟨a, h3, h4, h5⟩ := f.given x (List.mem_cons_self ..) c h hc
      refine ⟨a, _, h3, ?_, replaced_of h4 h5⟩
      rw [h2.others _ hn.1, reconfigureTask_named h hc h3, (tell_tasks ..).1, AMap.get?_set_self]
    · have ne : x.id ≠ r.id := fun e => hn.1 (List.mem_map.2 ⟨x, hx, e⟩)
      exact h2.named x hx c (by rw [ho _ ne]; exact h) hc

/-- The calls of activities. -/
theorem reconfigureTask_calls (s : RSt) (r : TaskActRep) : (reconfigureTask env s r).calls = s.calls ∨
    ∃ c m, s.tasks.get? r.id = some (some c) ∧ Changeable env c ∧ (reconfigureTask env s r).calls = (r.id, m) :: s.calls ∧
      (reconfigureTask env s r).tasks.get? r.id = some (some { c with settings := m }) := by
  unfold reconfigureTask
  split
  · exact .inl rfl
  · exact .inl rfl
  · rename_i c hc
    split
    · exact .inl rfl
    · rename_i hs
      unfold reconfigureSettings
      split
      · rename_i hr
        split
        · exact .inl rfl
        · rename_i a _
          have ht := (tell_tasks (env := env) s r.id c (resolveSettings env c.ref a.settings c.settings)).1
          generalize hq : resolveSettings env c.ref a.settings c.settings = q at *
          cases he : q.2 with
          | some err => left; unfold tell; rw [he]
          | none =>
            refine .inr ⟨c, q.1, hc, changeable_iff.1 ⟨hs, hr⟩, by unfold tell; rw [he], ?_⟩
            rw [ht, AMap.get?_set_self]
      · exact .inl rfl

theorem reconfigureTasks_calls (rs : List TaskActRep) : ∀ (s : RSt), s.panicked = false → Fits env s.tasks rs →
    ∃ new, (reconfigureTasks env rs s).calls = new ++ s.calls ∧ (new.map (·.1)).Nodup ∧
      (∀ t m, (t, m) ∈ new → t ∈ rs.map (·.id) ∧ ∃ c, s.tasks.get? t = some (some c) ∧ Changeable env c ∧
        (reconfigureTasks env rs s).tasks.get? t = some (some { c with settings := m })) ∧
      ∀ r ∈ rs, ∀ c, s.tasks.get? r.id = some (some c) → Changeable env c → r.id ∈ new.map (·.1) := by
  induction rs with
  | nil => intro s _ _; exact ⟨[], rfl, .nil, (fun _ _ h => nomatch h), fun _ h => nomatch h⟩
  | cons r rs ih =>
    intro s hp f
    have hn := List.nodup_cons.1 f.ids
    have ho : ∀ t, t ≠ r.id → (reconfigureTask env s r).tasks.get? t = s.tasks.get? t := fun t ht => reconfigureTask_others s r (Ne.symm ht)
    have ne : ∀ t, t ∈ rs.map (·.id) → t ≠ r.id := fun t ht e => hn.1 (show r.id ∈ _ from e ▸ ht)
    have hp' : (reconfigureTask env s r).panicked = false := by
      refine reconfigureTask_calm hp (f.act r (List.mem_cons_self ..)) fun c h hc => ?_
      obtain ⟨a, h1, _⟩ := f.given r (List.mem_cons_self ..) c h hc
      exact ⟨a, h1⟩
    obtain ⟨new, h1, h2, h3, h4⟩ := ih (reconfigureTask env s r) hp' (fits_tail f _ ho)
    have he : reconfigureTasks env (r :: rs) s = reconfigureTasks env rs (reconfigureTask env s r) := by
      conv => lhs; unfold reconfigureTasks
      rw [hp]; rfl
    have old : ∀ t m, (t, m) ∈ new → t ∈ (r :: rs).map (·.id) ∧ ∃ c, s.tasks.get? t = some (some c) ∧ Changeable env c ∧
        (reconfigureTasks env rs (reconfigureTask env s r)).tasks.get? t = some (some { c with settings := m }) := by
      intro t m htm
      obtain ⟨h5, c, h6, h7⟩ := h3 t m htm
      rw [ho t (ne t h5)] at h6
      exact ⟨List.mem_cons_of_mem _ h5, c, h6, h7⟩
    have oldr : ∀ x ∈ rs, ∀ c, s.tasks.get? x.id = some (some c) → Changeable env c → x.id ∈ new.map (·.1) := by
      intro x hx c h hc
      exact h4 x hx c (by rw [ho _ (ne _ (List.mem_map.2 ⟨x, hx, rfl⟩))]; exact h) hc
    rw [he]
    by_cases hcase : ∃ c, s.tasks.get? r.id = some (some c) ∧ Changeable env c
    · obtain ⟨c, hc1, hc2⟩ := hcase
      obtain ⟨a, ha, hk, hr⟩ := f.given r (List.mem_cons_self ..) c hc1 hc2
      have hres := (resolveSettings_ok (env := env) (ref := c.ref) c.settings hk hr).1
      have htell := reconfigureTask_named (s := s) hc1 hc2 ha
      have hcalls : (reconfigureTask env s r).calls = (r.id, (resolveSettings env c.ref a.settings c.settings).1) :: s.calls := by
        rw [htell]; unfold tell; rw [hres]
      have htask : (reconfigureTask env s r).tasks.get? r.id = some (some { c with settings := (resolveSettings env c.ref a.settings c.settings).1 }) := by
        rw [htell, (tell_tasks ..).1, AMap.get?_set_self]
      refine ⟨new ++ [(r.id, (resolveSettings env c.ref a.settings c.settings).1)], ?_, ?_, ?_, ?_⟩
      · rw [h1, hcalls, List.append_assoc]; rfl
      · rw [List.map_append]
        refine List.nodup_append.2 ⟨h2, by simp, fun x hx y hy e => ?_⟩
        have hy : y = r.id := by simpa using hy
        subst hy; subst e
        obtain ⟨p, hp1, hp2⟩ := List.mem_map.1 hx
        obtain ⟨h5, _⟩ := h3 p.1 p.2 hp1
        exact hn.1 (show r.id ∈ _ from hp2 ▸ h5)
      · intro t m htm
        rcases List.mem_append.1 htm with h | h
        · exact old t m h
        · have h := List.mem_singleton.1 h
          cases h
          refine ⟨List.mem_cons_self .., c, hc1, hc2, ?_⟩
          rw [reconfigureTasks_others rs _ hn.1, htask]
      · intro x hx c' h hc
        rw [List.map_append]
        rcases List.mem_cons.1 hx with e | hx
        · subst e; exact List.mem_append_right _ (List.mem_cons_self ..)
        · exact List.mem_append_left _ (oldr x hx c' h hc)
    · refine ⟨new, ?_, h2, old, ?_⟩
      · rcases reconfigureTask_calls (env := env) s r with h | ⟨c, m, h5, h6, _⟩
        · rw [h1, h]
        · exact absurd ⟨c, h5, h6⟩ hcase
      · intro x hx c' h hc
        rcases List.mem_cons.1 hx with e | hx
        · subst e; exact absurd ⟨c', h, hc⟩ hcase
        · exact oldr x hx c' h hc

/-! ### Cleanup -/

/-- Every call was made for an activity of the tasks `m`, and an error of the activity is in the list. -/
def Told (env : ActEnv) (m : Acts) (s : RSt) (p : TaskId × AMap String Val) : Prop :=
  ∃ c, m.get? p.1 = some (some c) ∧ ∀ err, env.reconfigure c.ref p.2 = some err → err ∈ s.errors

theorem reconfigureTask_told (s : RSt) (r : TaskActRep) : (∀ x ∈ s.errors, x ∈ (reconfigureTask env s r).errors) ∧
    ∀ p ∈ (reconfigureTask env s r).calls, p ∈ s.calls ∨ Told env s.tasks (reconfigureTask env s r) p := by
  have same : (∀ x ∈ s.errors, x ∈ s.errors) ∧ ∀ p ∈ s.calls, p ∈ s.calls ∨ Told env s.tasks s p := ⟨fun _ h => h, fun _ h => .inl h⟩
  unfold reconfigureTask
  cases h : s.tasks.get? r.id with
  | none => exact same
  | some o =>
    cases o with
    | none => exact ⟨fun _ h => h, fun _ h => .inl h⟩
    | some c =>
      dsimp only
      split
      · exact same
      · unfold reconfigureSettings
        split
        · cases r.act with
          | none => exact ⟨fun _ h => h, fun _ h => .inl h⟩
          | some a =>
            dsimp only
            unfold tell
            generalize resolveSettings env c.ref a.settings c.settings = q
            split
            · exact ⟨fun _ h => List.mem_cons_of_mem _ h, fun _ h => .inl h⟩
            · refine ⟨fun _ h => List.mem_append_right _ h, fun p hp => ?_⟩
              rcases List.mem_cons.1 hp with e | hp
              · subst e
                exact .inr ⟨c, h, fun err he => List.mem_append_left _ (by rw [he]; exact List.mem_singleton.2 rfl)⟩
              · exact .inl hp
        · exact same

theorem reconfigureTasks_told (rs : List TaskActRep) : ∀ (s : RSt), (∀ x ∈ s.errors, x ∈ (reconfigureTasks env rs s).errors) ∧
    ∀ p ∈ (reconfigureTasks env rs s).calls, p ∈ s.calls ∨ Told env s.tasks (reconfigureTasks env rs s) p := by
  induction rs with
  | nil => intro s; exact ⟨fun _ h => h, fun _ h => .inl h⟩
  | cons r rs ih =>
    intro s
    unfold reconfigureTasks
    split
    · exact ⟨fun _ h => h, fun _ h => .inl h⟩
    · obtain ⟨a1, a2⟩ := reconfigureTask_told (env := env) s r
      obtain ⟨b1, b2⟩ := ih (reconfigureTask env s r)
      refine ⟨fun x h => b1 x (a1 x h), fun p hp => ?_⟩
      rcases b2 p hp with h | ⟨c, h1, h2⟩
      · rcases a2 p h with h | ⟨c, h1, h2⟩
        · exact .inl h
        · exact .inr ⟨c, h1, fun err he => b1 _ (h2 err he)⟩
      · obtain ⟨k1, k2, k3⟩ := reconfigureTask_only (env := env) s r p.1
        cases h3 : s.tasks.get? p.1 with
        | none => rw [k1 h3] at h1; cases h1
        | some o =>
          cases o with
          | none => rw [k2 h3] at h1; cases h1
          | some c' =>
            obtain ⟨m, h4⟩ := k3 c' h3
            rw [h4] at h1; cases h1
            exact .inr ⟨c', h3, h2⟩

theorem disposes_iff {c : ActCfg} : disposes env c = true ↔ Disposable env c := by
  unfold disposes Disposable
  cases env.get c.ref with
  | none => exact ⟨fun h => (nomatch h), fun ⟨_, h, _⟩ => nomatch h⟩
  | some d =>
    dsimp only
    rw [Bool.and_eq_true]
    exact ⟨fun h => ⟨d, rfl, h⟩, fun ⟨_, h, h'⟩ => by cases h; exact h'⟩

theorem cleanTasks_mem {m : Acts} {t : TaskId} (h : t ∈ (cleanTasks env m).1) : t ∈ m.keys := by
  induction m with
  | nil => cases h
  | cons p m ih =>
    obtain ⟨k, c⟩ := p
    cases c with
    | none => cases h
    | some c =>
      unfold cleanTasks at h
      split at h
      · rcases List.mem_cons.1 h with e | h
        · subst e; exact List.mem_cons_self ..
        · exact List.mem_cons_of_mem _ (ih h)
      · exact List.mem_cons_of_mem _ (ih h)

theorem cleanTasks_all {m : Acts} (ha : ∀ p ∈ m, p.2 ≠ none) (hn : m.keys.Nodup) :
    (cleanTasks env m).2 = true ∧ (cleanTasks env m).1.Nodup ∧
    ∀ t, t ∈ (cleanTasks env m).1 ↔ ∃ c, m.get? t = some (some c) ∧ Disposable env c := by
  induction m with
  | nil => exact ⟨rfl, .nil, fun t => ⟨fun h => (nomatch h), fun ⟨_, h, _⟩ => nomatch h⟩⟩
  | cons p m ih =>
    obtain ⟨k, c⟩ := p
    have hn := List.nodup_cons.1 hn
    obtain ⟨h1, h2, h3⟩ := ih (fun p hp => ha p (List.mem_cons_of_mem _ hp)) hn.2
    cases c with
    | none => exact absurd rfl (ha (k, none) (List.mem_cons_self ..))
    | some c =>
      have get : ∀ t, AMap.get? ((k, some c) :: m) t = if k = t then some (some c) else AMap.get? m t := fun _ => rfl
      have other : ∀ t, k ≠ t → (t ∈ (cleanTasks env m).1 ↔ ∃ c', AMap.get? ((k, some c) :: m) t = some (some c') ∧ Disposable env c') := by
        intro t e
        rw [get, if_neg e]; exact h3 t
      have hk : k ∉ (cleanTasks env m).1 := fun h => hn.1 (cleanTasks_mem h)
      unfold cleanTasks
      split
      · rename_i hd
        refine ⟨h1, List.nodup_cons.2 ⟨hk, h2⟩, fun t => ?_⟩
        by_cases e : k = t
        · subst e
          exact ⟨fun _ => ⟨c, by rw [get, if_pos rfl], disposes_iff.1 hd⟩, fun _ => List.mem_cons_self ..⟩
        · rw [← other t e]
          exact ⟨fun h => (List.mem_cons.1 h).resolve_left (Ne.symm e), List.mem_cons_of_mem _⟩
      · rename_i hd
        refine ⟨h1, h2, fun t => ?_⟩
        by_cases e : k = t
        · subst e
          refine ⟨fun h => absurd h hk, fun ⟨c', h4, h5⟩ => ?_⟩
          rw [get, if_pos rfl] at h4; cases h4
          exact absurd (disposes_iff.2 h5) hd
        · exact other t e

/-! ### Inputs and outputs -/

theorem convertAll_get? {f : String → Val → Build Val} : ∀ {l m : AMap String Val}, convertAll f l = .ok m →
    (∀ k v, l.get? k = some v → ∃ w, m.get? k = some w ∧ f k v = .ok w) ∧ ∀ k, l.get? k = none → m.get? k = none := by
  intro l
  induction l with
  | nil => intro m h; cases h; exact ⟨(fun k v h => nomatch h), fun k h => h⟩
  | cons p l ih =>
    obtain ⟨k, v⟩ := p
    intro m h
    unfold convertAll at h
    split at h
    · cases h
    · rename_i w hw
      split at h
      · cases h
      · rename_i m' hm
        cases h
        obtain ⟨h1, h2⟩ := ih hm
        refine ⟨fun j x hx => ?_, fun j hx => ?_⟩
        · unfold AMap.get? at hx ⊢
          split at hx
          · rename_i e; cases hx; subst e
            exact ⟨w, if_pos rfl, hw⟩
          · rename_i e
            obtain ⟨y, h3, h4⟩ := h1 j x hx
            exact ⟨y, (if_neg e).trans h3, h4⟩
        · unfold AMap.get? at hx ⊢
          split at hx
          · cases hx
          · rename_i e; exact (if_neg e).trans (h2 j hx)

theorem convertAll_ok {f : String → Val → Build Val} : ∀ {l : AMap String Val}, (∀ p ∈ l, ∃ w, f p.1 p.2 = .ok w) → ∃ m, convertAll f l = .ok m := by
  intro l
  induction l with
  | nil => intro _; exact ⟨[], rfl⟩
  | cons p l ih =>
    intro h
    obtain ⟨w, hw⟩ := h p (List.mem_cons_self ..)
    obtain ⟨m, hm⟩ := ih fun q hq => h q (List.mem_cons_of_mem _ hq)
    obtain ⟨k, v⟩ := p
    have hw : f k v = .ok w := hw
    exact ⟨(k, w) :: m, by unfold convertAll; rw [hw]; dsimp only; rw [hm]⟩

theorem convertAll_mem {f : String → Val → Build Val} : ∀ {l m : AMap String Val}, convertAll f l = .ok m → ∀ p ∈ l, ∃ w, f p.1 p.2 = .ok w := by
  intro l
  induction l with
  | nil => intro m _ p h; cases h
  | cons q l ih =>
    obtain ⟨k, v⟩ := q
    intro m h p hp
    unfold convertAll at h
    split at h
    · cases h
    · rename_i w hw
      split at h
      · cases h
      · rename_i m' hm
        rcases List.mem_cons.1 hp with e | hp
        · subst e; exact ⟨w, hw⟩
        · exact ih hm p hp

theorem isConnection_iff {v : Val} : isConnection v = true ↔ ConnectionObject v := by
  unfold ConnectionObject
  cases v with
  | obj m =>
    show ((AMap.get? m "id").isSome && (AMap.get? m "type").isSome) = true ↔ _
    rw [Bool.and_eq_true, Option.isSome_iff_exists, Option.isSome_iff_exists]
    exact ⟨fun h => ⟨m, rfl, h⟩, fun ⟨_, h, h'⟩ => by cases h; exact h'⟩
  | _ => exact ⟨fun h => (nomatch h), fun ⟨_, h, _⟩ => nomatch h⟩

theorem declared_ok {v w : Val} {fail : String → Val → String → Build Val} {typ : Option String} (h : declared env v fail typ = .ok w) :
    (typ = none ∧ w = v) ∨ (∃ T, typ = some T ∧ env.coerce v T = (w, none)) ∨ ∃ T u err, typ = some T ∧ env.coerce v T = (u, some err) ∧ fail T u err = .ok w := by
  cases typ with
  | none => cases h; exact .inl ⟨rfl, rfl⟩
  | some T =>
    right
    unfold declared toType at h
    dsimp only at h
    generalize hq : env.coerce v T = q at h
    obtain ⟨u, e⟩ := q
    cases e with
    | none => cases h; exact .inl ⟨T, rfl, hq⟩
    | some err => exact .inr ⟨T, u, err, rfl, hq, h⟩

/-- The steps of `createActivityConfig`. -/
theorem createCfg_iff {r : ActRep} {c : ActCfg} : createCfg env r = .ok c ↔ ∃ d ins outs, findRef env r = .ok c.ref ∧ env.get c.ref = some d ∧
    (resolveSettings env c.ref r.settings []).2 = none ∧ (d.factory = true → env.create c.ref c.settings = none) ∧
    convertAll (convertInput env d) r.input = .ok ins ∧ env.mapper ins = none ∧
    convertAll (convertOutput env d) r.output = .ok outs ∧ checkSchemas env r.inSchemas = .ok () ∧ checkSchemas env r.outSchemas = .ok () ∧
    c = { ref := c.ref, type := typeOf r c.ref, settings := (resolveSettings env c.ref r.settings []).1, inputs := ins
          outputs := if r.output = [] then none else some outs, inSchemas := r.inSchemas, outSchemas := r.outSchemas } := by
  constructor
  · intro h
    unfold createCfg at h
    cases h0 : findRef env r with
    | error x => rw [h0] at h; cases h
    | ok ref =>
      rw [h0] at h
      simp only [Bind.bind, Except.bind, Pure.pure, Except.pure] at h
      cases h1 : env.get ref with
      | none => rw [h1] at h; cases h
      | some d =>
        rw [h1] at h
        simp only at h
        unfold failWith at h
        cases h2 : (resolveSettings env ref r.settings []).2 with
        | some m => rw [h2] at h; cases h
        | none =>
          rw [h2] at h
          simp only at h
          cases hf : (if d.factory = true then env.create ref (resolveSettings env ref r.settings []).1 else none) with
          | some m => rw [hf] at h; cases h
          | none =>
            rw [hf] at h
            simp only at h
            cases h3 : convertAll (convertInput env d) r.input with
            | error x => rw [h3] at h; cases h
            | ok ins =>
              rw [h3] at h
              simp only at h
              cases hm : env.mapper ins with
              | some m => rw [hm] at h; cases h
              | none =>
                rw [hm] at h
                simp only at h
                cases h4 : convertAll (convertOutput env d) r.output with
                | error x => rw [h4] at h; cases h
                | ok outs =>
                  rw [h4] at h
                  simp only at h
                  cases h5 : checkSchemas env r.inSchemas with
                  | error x => rw [h5] at h; cases h
                  | ok u =>
                    rw [h5] at h
                    simp only at h
                    cases h6 : checkSchemas env r.outSchemas with
                    | error x => rw [h6] at h; cases h
                    | ok u' =>
                      rw [h6] at h
                      cases h
                      refine ⟨d, ins, outs, rfl, h1, h2, fun hd => ?_, h3, hm, h4, rfl, rfl, rfl⟩
                      rw [if_pos hd] at hf; exact hf
  · rintro ⟨d, ins, outs, h0, h1, h2, hf, h3, hm, h4, h5, h6, e⟩
    unfold createCfg
    rw [h0]
    simp only [Bind.bind, Except.bind, Pure.pure, Except.pure]
    rw [h1]
    simp only
    have hf' : (if d.factory = true then env.create c.ref (resolveSettings env c.ref r.settings []).1 else none) = none := by
      split
      · rename_i hd
        have := hf hd
        rw [e] at this; exact this
      · rfl
    unfold failWith
    rw [h2, hf', h3]
    simp only
    rw [hm, h4]
    simp only
    rw [h5, h6]
    simp only
    rw [← e]

theorem createCfg_ok {r : ActRep} {c : ActCfg} (h : createCfg env r = .ok c) : ∃ d ins outs, findRef env r = .ok c.ref ∧ env.get c.ref = some d ∧
    (resolveSettings env c.ref r.settings []).2 = none ∧ convertAll (convertInput env d) r.input = .ok ins ∧
    convertAll (convertOutput env d) r.output = .ok outs ∧ c.inputs = ins ∧ c.settings = (resolveSettings env c.ref r.settings []).1 ∧
    c.outputs = if r.output = [] then none else some outs := by
  obtain ⟨d, ins, outs, h0, h1, h2, hf, h3, hm, h4, h5, h6, e⟩ := createCfg_iff.1 h
  exact ⟨d, ins, outs, h0, h1, h2, h3, h4, by rw [e], by rw [e], by rw [e]⟩

/-! ### References, settings, schemas -/

theorem isAlias_iff {s : String} : IsAlias s ↔ s.toList.head? = some '#' := by
  unfold IsAlias
  cases s.toList with
  | nil => exact ⟨fun ⟨_, h⟩ => (nomatch h), fun h => nomatch h⟩
  | cons a l => exact ⟨fun ⟨_, h⟩ => (by cases h; rfl), fun h => (by cases h; exact ⟨l, rfl⟩)⟩

theorem isAlias_type (t : String) : ("#" ++ t).toList.head? = some '#' := by
  rw [String.toList_append]; rfl

theorem findRef_iff {r : ActRep} {ref : String} : findRef env r = .ok ref ↔ Refers env r ref := by
  unfold findRef Refers
  by_cases h0 : r.ref = ""
  · by_cases h1 : r.type = ""
    · rw [show givenRef r = r.ref from if_neg (fun h => h.2 h1), if_pos h0]
      refine ⟨fun h => (nomatch h), ?_⟩
      rintro (⟨h, _⟩ | ⟨⟨l, h⟩, _⟩ | ⟨_, h, _⟩)
      · exact absurd h0 h
      · rw [h0] at h; cases h
      · exact absurd h1 h
    · have hne : "#" ++ r.type ≠ "" := fun h => by
        have := isAlias_type r.type
        rw [h] at this; cases this
      rw [show givenRef r = "#" ++ r.type from if_pos ⟨h0, h1⟩, if_neg hne, if_pos (isAlias_type _)]
      constructor
      · intro h
        split at h
        · rename_i x hx; cases h; exact .inr (.inr ⟨h0, h1, hx⟩)
        · cases h
      · rintro (⟨h, _⟩ | ⟨⟨l, h⟩, _⟩ | ⟨_, _, h⟩)
        · exact absurd h0 h
        · rw [h0] at h; cases h
        · rw [h]
  · rw [show givenRef r = r.ref from if_neg (fun h => h0 h.1), if_neg h0]
    by_cases h2 : IsAlias r.ref
    · rw [if_pos (isAlias_iff.1 h2)]
      constructor
      · intro h
        split at h
        · rename_i x hx; cases h; exact .inr (.inl ⟨h2, hx⟩)
        · cases h
      · rintro (⟨_, h, _⟩ | ⟨_, h⟩ | ⟨h, _⟩)
        · exact absurd h2 h
        · rw [h]
        · exact absurd h h0
    · rw [if_neg (fun h => h2 (isAlias_iff.2 h))]
      constructor
      · intro h; cases h; exact .inl ⟨h0, h2, rfl⟩
      · rintro (⟨_, _, h⟩ | ⟨h, _⟩ | ⟨h, _⟩)
        · rw [h]
        · exact absurd h h2
        · exact absurd h h0

theorem resolveSettings_none : ∀ (l : AMap String Val) (m : AMap String Val),
    (resolveSettings env ref l m).2 = none ↔ ∀ p ∈ l, (env.resolve ref p.1 p.2).2 = none := by
  intro l
  induction l with
  | nil => intro m; exact ⟨fun _ p h => (nomatch h), fun _ => rfl⟩
  | cons q l ih =>
    obtain ⟨k, x⟩ := q
    intro m
    rw [resolveSettings]
    generalize hq : env.resolve ref k x = q
    obtain ⟨w, e⟩ := q
    cases e with
    | some err =>
      refine ⟨fun h => (nomatch h), fun h => ?_⟩
      have := h (k, x) (List.mem_cons_self ..)
      rw [hq] at this; cases this
    | none =>
      show (resolveSettings env ref l (m.set k w)).2 = none ↔ _
      rw [ih]
      refine ⟨fun h p hp => ?_, fun h p hp => h p (List.mem_cons_of_mem _ hp)⟩
      rcases List.mem_cons.1 hp with e | hp
      · subst e; rw [hq]
      · exact h p hp

theorem checkSchemas_iff {o : Option (AMap String Val)} : checkSchemas env o = .ok () ↔ ∀ m, o = some m → ∀ p ∈ m, env.schema p.2 = none := by
  cases o with
  | none => exact ⟨fun _ m h => (nomatch h), fun _ => rfl⟩
  | some m =>
    unfold checkSchemas
    dsimp only
    constructor
    · intro h m' e p hp
      cases e
      split at h
      · cases h
      · rename_i hx
        exact List.findSome?_eq_none_iff.1 hx p hp
    · intro h
      rw [List.findSome?_eq_none_iff.2 (h m rfl)]

theorem convertInput_iff {d : Desc} {k : String} {v : Val} : (∃ w, convertInput env d k v = .ok w) ↔
    (Misfit env (d.inputs.get? k) v → d.inputs.get? k = some "connection" ∧ ConnectionObject v ∨ env.testMode = true) := by
  unfold convertInput Misfit
  by_cases hx : env.isExpr v = true
  · rw [if_pos hx]
    refine ⟨fun _ ⟨h, _⟩ => ?_, fun _ => ⟨v, rfl⟩⟩
    rw [hx] at h; cases h
  · have hx' : env.isExpr v = false := by simpa using hx
    rw [if_neg hx]
    cases hT : d.inputs.get? k with
    | none => exact ⟨fun _ ⟨_, T, _, _, h, _⟩ => (nomatch h), fun _ => ⟨v, rfl⟩⟩
    | some T =>
      unfold declared toType
      dsimp only
      generalize hq : env.coerce v T = q
      obtain ⟨w, e⟩ := q
      cases e with
      | none =>
        refine ⟨fun _ ⟨_, T', _, _, h, h'⟩ => ?_, fun _ => ⟨w, rfl⟩⟩
        cases h; rw [hq] at h'; cases h'
      | some err =>
        show (∃ u, onFailure env k v w T err = .ok u) ↔ _
        unfold onFailure
        constructor
        · rintro ⟨u, h⟩ _
          split at h
          · rename_i hc; exact .inl ⟨by rw [hc.1], isConnection_iff.1 hc.2⟩
          · split at h
            · rename_i ht; exact .inr ht
            · cases h
        · intro h
          rcases h ⟨hx', T, w, err, rfl, hq⟩ with ⟨h1, h2⟩ | h1
          · cases h1
            exact ⟨v, if_pos ⟨rfl, isConnection_iff.2 h2⟩⟩
          · split
            · exact ⟨v, rfl⟩
            · exact ⟨_, rfl⟩

theorem convertOutput_iff {d : Desc} {k : String} {v : Val} : (∃ w, convertOutput env d k v = .ok w) ↔ ¬ Misfit env (d.outputs.get? k) v := by
  unfold convertOutput Misfit
  by_cases hx : env.isExpr v = true
  · rw [if_pos hx]
    refine ⟨fun _ ⟨h, _⟩ => ?_, fun _ => ⟨v, rfl⟩⟩
    rw [hx] at h; cases h
  · have hx' : env.isExpr v = false := by simpa using hx
    rw [if_neg hx]
    cases hT : d.outputs.get? k with
    | none => exact ⟨fun _ ⟨_, T, _, _, h, _⟩ => (nomatch h), fun _ => ⟨v, rfl⟩⟩
    | some T =>
      unfold declared toType
      dsimp only
      generalize hq : env.coerce v T = q
      obtain ⟨w, e⟩ := q
      cases e with
      | none =>
        refine ⟨fun _ ⟨_, T', _, _, h, h'⟩ => ?_, fun _ => ⟨w, rfl⟩⟩
        cases h; rw [hq] at h'; cases h'
      | some err => exact ⟨fun ⟨_, h⟩ => (nomatch h), fun h => absurd ⟨hx', T, w, err, rfl, hq⟩ h⟩

end Flow.Act
