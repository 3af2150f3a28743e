import Verif.Spec.Settings

/- C105: settings of the environment. -/

namespace Flow
open Settings Spec.Settings

namespace SettingsP

/-- The package variable of a setting. -/
def kept (c : Cache) : Name → String
  | .user => c.username
  | .host => c.hostName
  | .app => c.appName
  | .version => c.appVersion

theorem len_pos {s : String} : s.length > 0 ↔ s ≠ "" := by
  rw [gt_iff_lt, Nat.pos_iff_ne_zero, ne_eq, String.length_eq_zero_iff]

theorem getenv_eq (w : World) (n : Name) : w.getenv (varOf n) = (says w n).getD "" := by
  unfold World.getenv says
  cases h : w.vars (varOf n) with
  | none => rfl
  | some s =>
    by_cases hs : s = ""
    · simp [hs]
    · simp [hs]

theorem says_ne (w : World) (n : Name) {s : String} (h : says w n = some s) : s ≠ "" := by
  unfold says at h
  split at h
  · cases h
  · split at h
    · cases h
    · cases h; assumption

theorem ask_eq (c : Cache) (w : World) (n : Name) :
    (ask c w n).2 = (if kept c n ≠ "" then kept c n else (says w n).getD (fallback w n)) ∧
    kept (ask c w n).1 n = (if kept c n ≠ "" then kept c n else (says w n).getD "") ∧
    ∀ m, m ≠ n → kept (ask c w n).1 m = kept c m := by
  have hg := getenv_eq w n
  have hs : ∀ s, says w n = some s → s ≠ "" := fun s h => says_ne w n h
  by_cases hc : kept c n = "" <;>
    cases n <;>
    simp only [varOf] at hg <;>
    simp only [kept] at hc <;>
    simp only [ask, getUserName, getHostId, getAppName, getAppVersion, kept, hg, len_pos, fallback,
      String.length_eq_zero_iff] <;>
    generalize says w _ = o at hs ⊢
  all_goals first
    | (simp only [hc, ne_eq, not_true_eq_false, not_false_eq_true, if_false, if_true]
       cases o with
       | none => exact ⟨rfl, rfl, fun m hm => by cases m <;> first | rfl | exact absurd rfl hm⟩
       | some s =>
         have hne := hs s rfl
         simp only [Option.getD_some, hne, not_false_eq_true, if_true, if_false]
         exact ⟨trivial, trivial, fun m hm => by cases m <;> first | rfl | exact absurd rfl hm⟩)
    | (simp only [hc, ne_eq, not_false_eq_true, if_true]
       exact ⟨trivial, trivial, fun m _ => trivial⟩)

/-- The package variables after a sequence of calls. -/
def after (c : Cache) : List (World × Name) → Cache
  | [] => c
  | (w, n) :: h => after (ask c w n).1 h

theorem first_cons (w : World) (m : Name) (h : List (World × Name)) (n : Name) :
    first ((w, m) :: h) n = ((if m = n then says w n else none) <|> first h n) := by
  unfold first
  rw [List.findSome?_cons]
  cases hh : (if m = n then says w n else none) with
  | none => simp
  | some s => simp

theorem kept_after (h : List (World × Name)) : ∀ (c : Cache) (n : Name),
    kept (after c h) n = if kept c n ≠ "" then kept c n else (first h n).getD "" := by
  induction h with
  | nil =>
    intro c n
    simp only [after, first, List.findSome?_nil, Option.getD_none]
    split
    · rfl
    · rename_i hn; exact Decidable.not_not.mp hn
  | cons x h ih =>
    intro c n
    obtain ⟨w, m⟩ := x
    rw [after, ih, first_cons]
    have ha := ask_eq c w m
    by_cases hm : m = n
    · subst hm
      rw [ha.2.1, if_pos rfl]
      by_cases hc : kept c m ≠ ""
      · rw [if_pos hc, if_pos hc, if_pos hc]
      · rw [if_neg hc, if_neg hc]
        cases hs : says w m with
        | none => simp
        | some s =>
          have := says_ne w m hs
          simp [this]
    · rw [ha.2.2 n (fun he => hm he.symm), if_neg hm]
      rfl

theorem answers_at (h₁ : List (World × Name)) : ∀ (c : Cache) (w : World) (n : Name) (h₂ : List (World × Name)),
    (answers c (h₁ ++ (w, n) :: h₂))[h₁.length]? = some (ask (after c h₁) w n).2 := by
  induction h₁ with
  | nil => intro c w n h₂; rfl
  | cons x h ih =>
    intro c w n h₂
    obtain ⟨v, m⟩ := x
    exact ih (ask c v m).1 w n h₂

theorem digit_ok (n : Nat) : '0' ≤ digit n ∧ digit n ≤ '9' ∧ (digit n).toNat - '0'.toNat = n % 10 := by
  have h : ∀ k, k < 10 → '0' ≤ Char.ofNat ('0'.toNat + k) ∧ Char.ofNat ('0'.toNat + k) ≤ '9' ∧
      (Char.ofNat ('0'.toNat + k)).toNat - '0'.toNat = k := by decide
  exact h (n % 10) (Nat.mod_lt _ (by omega))

theorem atoiDigits_append (cs ds : List Char) : ∀ k, atoiDigits (cs ++ ds) k = (atoiDigits cs k).bind (atoiDigits ds) := by
  induction cs with
  | nil => intro k; rfl
  | cons c cs ih =>
    intro k
    rw [List.cons_append, atoiDigits, atoiDigits]
    split
    · exact ih _
    · rfl

theorem atoiDigits_digits (n : Nat) : atoiDigits (digits n) 0 = some n := by
  induction n using Nat.strongRecOn with
  | ind n ih =>
    unfold digits
    have hd := digit_ok n
    split
    · rename_i hlt
      rw [atoiDigits, if_pos ⟨hd.1, hd.2.1⟩, hd.2.2, atoiDigits, Nat.mod_eq_of_lt hlt]
      simp
    · rename_i hge
      rw [atoiDigits_append, ih (n / 10) (by omega), Option.bind_some, atoiDigits, if_pos ⟨hd.1, hd.2.1⟩, hd.2.2, atoiDigits]
      congr 1
      omega

theorem digits_cons (n : Nat) : ∃ c cs, digits n = c :: cs ∧ '0' ≤ c ∧ c ≤ '9' := by
  induction n using Nat.strongRecOn with
  | ind n ih =>
    unfold digits
    split
    · exact ⟨_, _, rfl, (digit_ok n).1, (digit_ok n).2.1⟩
    · obtain ⟨c, cs, h, h1, h2⟩ := ih (n / 10) (by omega)
      exact ⟨c, cs ++ [digit n], by rw [h]; rfl, h1, h2⟩

theorem atoiNat_digits (n : Nat) : atoiNat (digits n) = some n := by
  have h := atoiDigits_digits n
  obtain ⟨c, cs, hc, -, -⟩ := digits_cons n
  rw [hc] at h ⊢
  exact h

theorem atoiDigits_some (cs : List Char) : ∀ k, (atoiDigits cs k).isSome ↔ ∀ c ∈ cs, '0' ≤ c ∧ c ≤ '9' := by
  induction cs with
  | nil => intro k; simp [atoiDigits]
  | cons c cs ih =>
    intro k
    rw [atoiDigits]
    split
    · rename_i h
      rw [ih]
      simp [h]
    · rename_i h
      simp [h]

end SettingsP

open SettingsP

/-- C105: the name, version, user and host that are reported are what the environment variable said when it was first asked for
and said something, and the fallback as long as it has said nothing. Other settings that are asked for play no role. -/
theorem C105_names (before : List (World × Name)) (w : World) (n : Name) (later : List (World × Name)) :
    (answers {} (before ++ (w, n) :: later))[before.length]? = some ((first (before ++ [(w, n)]) n).getD (fallback w n)) := by
  rw [answers_at, (ask_eq _ w n).1, kept_after]
  have h0 : kept ({} : Cache) n = "" := by cases n <;> rfl
  simp only [h0, ne_eq, not_true_eq_false, if_false]
  have hf : first (before ++ [(w, n)]) n = (first before n <|> says w n) := by
    unfold first
    rw [List.findSome?_append]
    simp
  rw [hf]
  cases hb : first before n with
  | none => simp
  | some s =>
    have hs : s ≠ "" := by
      unfold first at hb
      obtain ⟨x, -, hx⟩ := List.exists_of_findSome?_eq_some hb
      split at hx
      · exact says_ne _ _ hx
      · cases hx
    simp [hs]

/-- C105: once the variable has said something when the setting was asked for, all later answers are the same, whatever happens to
the environment. -/
theorem C105_stable (before : List (World × Name)) (w : World) (n : Name) (between : List (World × Name)) (w' : World)
    (later : List (World × Name)) (hs : says w n ≠ none) :
    (answers {} (before ++ (w, n) :: (between ++ (w', n) :: later)))[before.length]? =
      (answers {} (before ++ (w, n) :: (between ++ (w', n) :: later)))[before.length + 1 + between.length]? := by
  have h1 := C105_names before w n (between ++ (w', n) :: later)
  have h2 := C105_names (before ++ (w, n) :: between) w' n later
  have hl : (before ++ (w, n) :: between).length = before.length + 1 + between.length := by
    simp only [List.length_append, List.length_cons]; omega
  rw [hl, List.append_assoc, List.cons_append] at h2
  rw [h1, h2]
  have hf : ∃ s, first (before ++ [(w, n)]) n = some s := by
    unfold first
    rw [List.findSome?_append]
    cases before.findSome? (fun x => if x.2 = n then says x.1 n else none) with
    | some s => exact ⟨s, rfl⟩
    | none =>
      obtain ⟨s, hs⟩ := Option.ne_none_iff_exists'.mp hs
      exact ⟨s, by simp [hs]⟩
  obtain ⟨s, hf⟩ := hf
  have hg : first (before ++ (w, n) :: between ++ [(w', n)]) n = some s := by
    have e : before ++ (w, n) :: between ++ [(w', n)] = (before ++ [(w, n)]) ++ (between ++ [(w', n)]) := by simp
    unfold first at hf ⊢
    rw [e, List.findSome?_append, hf]
    rfl
  rw [hf, hg]
  rfl

/-- C105: as long as the variable says nothing, the fallback of the moment is reported. -/
theorem C105_fallback (before : List (World × Name)) (w : World) (n : Name) (later : List (World × Name))
    (hs : ∀ x ∈ before ++ [(w, n)], x.2 = n → says x.1 n = none) :
    (answers {} (before ++ (w, n) :: later))[before.length]? = some (fallback w n) := by
  rw [C105_names]
  have hf : first (before ++ [(w, n)]) n = none := by
    unfold first
    rw [List.findSome?_eq_none_iff]
    intro x hx
    split
    · rename_i h; exact hs x hx h
    · rfl
  rw [hf]
  rfl

/-- C105: the name and version of the application that are recorded for a run are those that its flows see, if the environment does
not change in between; whatever was asked for before. -/
theorem C105_recorded_is_seen (c : Cache) (w : World) :
    (startAttrs (flowState c w).1 w).2 = ((flowState c w).2.appName, (flowState c w).2.appVersion) := by
  have key : ∀ (c : Cache) (n m : Name), n ≠ m → (ask (ask c w m).1 w n).2 = (ask c w n).2 := by
    intro c n m hne
    rw [(ask_eq _ w n).1, (ask_eq c w n).1, (ask_eq c w m).2.2 n hne]
  have again : ∀ (c : Cache) (n : Name), (ask (ask c w n).1 w n).2 = (ask c w n).2 := by
    intro c n
    rw [(ask_eq _ w n).1, (ask_eq c w n).1, (ask_eq c w n).2.1]
    by_cases hc : kept c n = ""
    · cases hs : says w n with
      | none => simp [hc]
      | some s => simp [hc, says_ne w n hs]
    · simp [hc]
  have hu : ∀ c, getUserName c w = ask c w .user := fun _ => rfl
  have hh : ∀ c, getHostId c w = ask c w .host := fun _ => rfl
  have ha : ∀ c, getAppName c w = ask c w .app := fun _ => rfl
  have hv : ∀ c, getAppVersion c w = ask c w .version := fun _ => rfl
  simp only [startAttrs, flowState, hu, hh, ha, hv]
  rw [key _ .app .host (by decide), key _ .app .version (by decide), again, key _ .version .app (by decide),
    key _ .version .host (by decide), again]

/-- C105: an option is what its variable says; a variable that is not set and a text that is no truth value mean the default. -/
theorem C105_options (toBool : String → Option Bool) (w : World) :
    (getPrioritizeExprTask toBool w = true ↔
      ∃ s, w.vars "FLOGO_TASK_PRIORITIZE_EXPR_LINK" = some s ∧ toBool s = some true) ∧
    (getPropagateSkip toBool w = false ↔ ∃ s, w.vars "FLOGO_TASK_PROPAGATE_SKIP" = some s ∧ toBool s = some false) := by
  constructor
  · unfold getPrioritizeExprTask
    cases h : w.vars "FLOGO_TASK_PRIORITIZE_EXPR_LINK" with
    | none => simp
    | some s =>
      cases hb : toBool s with
      | none => simp [hb]
      | some b => cases b <;> simp [hb]
  · unfold getPropagateSkip
    cases h : w.vars "FLOGO_TASK_PROPAGATE_SKIP" with
    | none => simp
    | some s =>
      cases hb : toBool s with
      | none => simp [hb]
      | some b => cases b <;> simp [hb]

/-- C105: the step limit is the number that the variable contains, for every number a machine integer can have. -/
theorem C105_limit (w : World) (i : Int) (hlo : -(2 ^ 63) ≤ i) (hhi : i < 2 ^ 63)
    (hv : w.vars "FLOGO_MAX_STEP_COUNT" = some (decimal i)) : getMaxStepCount w = i := by
  have ha : atoi (decimal i) = some i := by
    cases i with
    | ofNat n =>
      have hn : n < 2 ^ 63 := by
        have : (n : Int) < 2 ^ 63 := hhi
        omega
      obtain ⟨c, cs, hc, h1, h2⟩ := digits_cons n
      have hN := atoiNat_digits n
      simp only [decimal, atoi, String.toList_ofList, hc] at hN ⊢
      have hm : c ≠ '-' := by intro h; subst h; exact absurd h1 (by decide)
      have hp : c ≠ '+' := by intro h; subst h; exact absurd h1 (by decide)
      split
      · rename_i heq; cases heq; exact absurd rfl hm
      · rename_i heq; cases heq; exact absurd rfl hp
      · rw [hN]
        simp only [if_pos hn]
        rfl
    | negSucc n =>
      have hn : n + 1 ≤ 2 ^ 63 := by
        have : -(2 ^ 63) ≤ Int.negSucc n := hlo
        omega
      simp only [decimal, atoi, String.toList_ofList, atoiNat_digits, if_pos hn]
      rfl
  unfold getMaxStepCount
  rw [hv]
  simp only [ha]

namespace SettingsP

theorem atoiDigits_worth (cs : List Char) (h : ∀ c ∈ cs, '0' ≤ c ∧ c ≤ '9') :
    ∀ k, atoiDigits cs k = some (k * 10 ^ cs.length + worth cs) := by
  induction cs with
  | nil => intro k; simp [atoiDigits, worth]
  | cons c cs ih =>
    intro k
    rw [atoiDigits, if_pos (h c (List.mem_cons_self ..)), ih (fun d hd => h d (List.mem_cons_of_mem _ hd)), worth, List.length_cons,
      Nat.pow_succ, Nat.add_mul]
    congr 1
    rw [Nat.mul_assoc, Nat.mul_comm 10, Nat.add_assoc]

theorem atoiNat_worth {cs : List Char} (hne : cs ≠ []) (h : ∀ c ∈ cs, '0' ≤ c ∧ c ≤ '9') : atoiNat cs = some (worth cs) := by
  cases cs with
  | nil => exact absurd rfl hne
  | cons c cs =>
    rw [atoiNat, atoiDigits_worth _ h]
    simp

theorem atoi_denotes {s : String} {i : Int} (h : Denotes s i) :
    atoi s = if -(2 ^ 63) ≤ i ∧ i < 2 ^ 63 then some i else none := by
  obtain ⟨cs, hne, hd, ⟨hs | hs, hi⟩ | ⟨hs, hi⟩⟩ := h
  · unfold atoi
    rw [hs]
    split
    · exact absurd (hd '-' (List.mem_cons_self ..)) (by decide)
    · exact absurd (hd '+' (List.mem_cons_self ..)) (by decide)
    · rw [atoiNat_worth hne hd]
      subst hi
      by_cases hb : worth cs < 2 ^ 63
      · rw [if_pos ⟨by omega, by omega⟩]
        simp only [if_pos hb]
      · rw [if_neg (fun hc => hb (by omega))]
        simp only [if_neg hb]
  · unfold atoi
    simp only [hs, atoiNat_worth hne hd]
    subst hi
    by_cases hb : worth cs < 2 ^ 63
    · rw [if_pos hb, if_pos ⟨by omega, by omega⟩]
    · rw [if_neg hb, if_neg (fun hc => hb (by omega))]
  · unfold atoi
    simp only [hs, atoiNat_worth hne hd]
    subst hi
    by_cases hb : worth cs ≤ 2 ^ 63
    · rw [if_pos hb, if_pos ⟨by omega, by omega⟩]
    · rw [if_neg hb, if_neg (fun hc => hb (by omega))]

end SettingsP

open SettingsP in
/-- C105: every text that is a number is read as that number if a machine integer can hold it, with or without a sign and leading
zeros; otherwise it means ten million steps. -/
theorem C105_limit_text (w : World) (s : String) (i : Int) (hv : w.vars "FLOGO_MAX_STEP_COUNT" = some s) (h : Denotes s i) :
    getMaxStepCount w = if -(2 ^ 63) ≤ i ∧ i < 2 ^ 63 then i else 10000000 := by
  unfold getMaxStepCount
  rw [hv]
  dsimp only
  rw [atoi_denotes h]
  by_cases hb : -(2 ^ 63) ≤ i ∧ i < 2 ^ 63
  · rw [if_pos hb, if_pos hb]
  · rw [if_neg hb, if_neg hb]

/-- C105: a limit that is not set or no number means ten million steps. -/
theorem C105_limit_default (w : World) (hv : ∀ s, w.vars "FLOGO_MAX_STEP_COUNT" = some s → ¬IsNumber s) :
    getMaxStepCount w = 10000000 := by
  unfold getMaxStepCount
  split
  · rfl
  · rename_i s hs
    have hno := hv s hs
    have hnone : atoi s = none := by
      have key : ∀ cs, (atoiNat cs).isSome → cs ≠ [] ∧ ∀ c ∈ cs, '0' ≤ c ∧ c ≤ '9' := by
        intro cs h
        cases cs with
        | nil => cases h
        | cons c cs => exact ⟨(fun h => nomatch h), (atoiDigits_some (c :: cs) 0).mp h⟩
      unfold atoi
      split
      · rename_i cs hcs
        cases h : atoiNat cs with
        | none => rfl
        | some n =>
          have := key cs (by rw [h]; rfl)
          exact absurd ⟨['-'], cs, hcs, .inr (.inr rfl), this.1, this.2⟩ hno
      · rename_i cs hcs
        cases h : atoiNat cs with
        | none => rfl
        | some n =>
          have := key cs (by rw [h]; rfl)
          exact absurd ⟨['+'], cs, hcs, .inr (.inl rfl), this.1, this.2⟩ hno
      · cases h : atoiNat s.toList with
        | none => rfl
        | some n =>
          have := key s.toList (by rw [h]; rfl)
          exact absurd ⟨[], s.toList, rfl, .inl rfl, this.1, this.2⟩ hno
    rw [hnone]

namespace SettingsP

/-- An environment without variables. -/
def bare : World := ⟨fun _ => none, "node1", "orders", "1.0.0"⟩

/-- The environment after the variable for the name was set. -/
def named (s : String) : World := { bare with vars := fun k => if k = "FLOGO_APP_NAME" then some s else none }

/-- An environment with a step limit. -/
def limited (s : String) : World := { bare with vars := fun k => if k = "FLOGO_MAX_STEP_COUNT" then some s else none }

example : answers {} [(bare, .app), (named "shop", .app), (bare, .user), (named "depot", .app), (bare, .app)] =
    ["orders", "shop", "flogo", "shop", "shop"] := by decide

example : says (named "shop") .app ≠ none := by decide

example : ∀ x ∈ [(bare, Name.app), (named "shop", .user)] ++ [(bare, .app)], x.2 = .app → says x.1 .app = none := by decide

example : decimal 250 = "250" ∧ decimal (-7) = "-7" ∧ (limited "250").vars "FLOGO_MAX_STEP_COUNT" = some (decimal 250) := by
  decide +kernel

example : Denotes "+007" 7 ∧ Denotes "-9223372036854775808" (-(2 ^ 63)) :=
  ⟨⟨"007".toList, by decide, by decide, .inl ⟨.inr (by decide), by decide⟩⟩,
    ⟨"9223372036854775808".toList, by decide, by decide, .inr ⟨by decide, by decide⟩⟩⟩

example : ¬IsNumber "many" := by
  intro ⟨sign, cs, h, hs, hne, hc⟩
  have hm : "many".toList = ['m', 'a', 'n', 'y'] := by decide
  rw [hm] at h
  rcases hs with h1 | h1 | h1 <;> subst h1
  · rw [List.nil_append] at h
    exact absurd (hc 'm' (by rw [← h]; decide)) (by decide)
  · cases h
  · cases h

end SettingsP

/-- C105: the name that is reported can change while the program is running: two flows started one after the other see different
names if the variable is set in between, but a variable that is changed again is not noticed. -/
theorem C105_negation_names :
    ∃ w₁ w₂ w₃, (startAttrs {} w₁).2.1 ≠ (startAttrs (startAttrs {} w₁).1 w₂).2.1 ∧ says w₃ .app ≠ says w₂ .app ∧
      (startAttrs (startAttrs (startAttrs {} w₁).1 w₂).1 w₃).2.1 = (startAttrs (startAttrs {} w₁).1 w₂).2.1 :=
  ⟨bare, named "shop", named "depot", by decide, by decide, by decide⟩

/-- C105: with and without concurrent task execution a run is bounded by different limits if the variable is changed after the
program was loaded. -/
theorem C105_negation_limit : ∃ load now, limitPlain load now ≠ limitConcurrent load now :=
  ⟨bare, limited "250", by decide +kernel⟩

/-- C105: the limit is the one that the environment states, with and without concurrent task execution. Missing: changes of the
variable while the program is running, see the negation above. -/
theorem C105_limit_same_partial (load now : World) (h : load.vars "FLOGO_MAX_STEP_COUNT" = now.vars "FLOGO_MAX_STEP_COUNT") :
    limitPlain load now = limitConcurrent load now := by
  unfold limitPlain limitConcurrent getMaxStepCount
  rw [h]

end Flow
