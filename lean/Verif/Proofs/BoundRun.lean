import Verif.Proofs.BoundStep

/-
The costs exist for flows without circles whose calls are layered, and they bound the number of steps.
-/

namespace Flow.Bnd
open Spec Eng

variable {env : Env} {defs : String → Except Err (Option Def)} {d : Def}

/-! ### Existence of the costs -/

section
variable (d : Def) (r : Nat) (C : TaskId → Nat → Nat)

def costR (E : TaskId → Nat) (t : TaskId) : Nat := r + 3 + ((outOf d t).map (fun l => E l.dst)).sum

def costE (E : TaskId → Nat) (t : TaskId) : Nat := 1 + costR d r E t + C t (costR d r E t)

def iter : Nat → TaskId → Nat
  | 0 => fun _ => 0
  | n + 1 => costE d r C (iter n)

end

theorem costR_congr {r : Nat} {E E' : TaskId → Nat} {t : TaskId} (h : ∀ l ∈ allLinks d, l.src = t → E l.dst = E' l.dst) :
    costR d r E t = costR d r E' t := by
  unfold costR
  congr 2
  apply List.map_congr_left
  intro l hl
  unfold outOf at hl
  rw [List.mem_filter] at hl
  exact h l hl.1 (by simpa using hl.2)

theorem le_sum {l : List Nat} {x : Nat} (h : x ∈ l) : x ≤ l.sum := by
  induction l with
  | nil => cases h
  | cons y ys ih =>
    rw [List.sum_cons]
    cases h with
    | head => omega
    | tail _ h => have := ih h; omega

theorem iter_stable {r : Nat} {C : TaskId → Nat → Nat} {rank : TaskId → Nat} (hr : ∀ l ∈ allLinks d, rank l.src < rank l.dst) {M : Nat}
    (hM : ∀ l ∈ allLinks d, rank l.dst ≤ M) (n : Nat) : ∀ t, M < rank t + n → iter d r C (n + 2) t = iter d r C (n + 1) t := by
  induction n with
  | zero =>
    intro t ht
    have : costR d r (iter d r C 1) t = costR d r (iter d r C 0) t := costR_congr fun l hl hs => by
      have := hr l hl
      have := hM l hl
      rw [hs] at *
      omega
    show costE d r C (iter d r C 1) t = costE d r C (iter d r C 0) t
    unfold costE
    rw [this]
  | succ n ih =>
    intro t ht
    have : costR d r (iter d r C (n + 2)) t = costR d r (iter d r C (n + 1)) t := costR_congr fun l hl hs => by
      refine ih l.dst ?_
      have := hr l hl
      rw [hs] at this
      omega
    show costE d r C (iter d r C (n + 2)) t = costE d r C (iter d r C (n + 1)) t
    unfold costE
    rw [this]

theorem fixed (hd : NoCircle d) (r : Nat) (C : TaskId → Nat → Nat) : ∃ E : TaskId → Nat, ∀ t, E t = costE d r C E t := by
  obtain ⟨rank, hr⟩ := hd
  let M := ((allLinks d).map (fun l => rank l.dst)).sum
  have hM : ∀ l ∈ allLinks d, rank l.dst ≤ M := fun l hl => le_sum (List.mem_map_of_mem (f := fun l => rank l.dst) hl)
  refine ⟨iter d r C (M + 2), fun t => ?_⟩
  exact (iter_stable hr hM (M + 1) t (by omega)).symm

/-- The flow that a task calls. -/
def callee (d : Def) (t : TaskRef) : Option String :=
  match d.task? t with
  | some td => td.act.sub?
  | none => none

theorem callee_of {t : TaskRef} {td : TaskDef} {uri : String} (h : d.task? t = some td) (h' : td.act = .subflow uri) :
    callee d t = some uri := by
  unfold callee
  rw [h]
  dsimp only
  rw [h']
  rfl

def cost (defs : String → Except Err (Option Def)) (d : Def) (V : String → Nat → Wt) (t : TaskRef) (r : Nat) : Nat :=
  match callee d t with
  | none => 0
  | some uri => match defs uri with
    | .ok (some d') => total d' (V uri r)
    | _ => 0

/-- The costs of a flow, given those of the flows it calls. -/
theorem fits_of (hd : NoCircle d)
    (hs : ∀ t td uri d', d.task? t = some td → td.act = .subflow uri → defs uri = .ok (some d') → ∀ r, ∃ V : Wt, V.r = r ∧ Fits defs d' V)
    (r : Nat) : ∃ W : Wt, W.r = r ∧ Fits defs d W := by
  have hV : ∃ V : String → Nat → Wt, ∀ t td uri d', d.task? t = some td → td.act = .subflow uri → defs uri = .ok (some d') →
      ∀ r, (V uri r).r = r ∧ Fits defs d' (V uri r) := by
    have h0 : ∀ uri r, ∃ V : Wt, ∀ t td d', d.task? t = some td → td.act = .subflow uri → defs uri = .ok (some d') →
        V.r = r ∧ Fits defs d' V := by
      intro uri r
      by_cases h : ∃ t td d', d.task? t = some td ∧ td.act = .subflow uri ∧ defs uri = .ok (some d')
      · obtain ⟨t, td, d', h1, h2, h3⟩ := h
        obtain ⟨V, h4, h5⟩ := hs t td uri d' h1 h2 h3 r
        refine ⟨V, fun _ _ d'' _ _ h6 => ?_⟩
        rw [h3] at h6
        cases h6
        exact ⟨h4, h5⟩
      · exact ⟨⟨fun _ => 0, fun _ => 0, fun _ => 0, 0, 0⟩, fun t td d' h1 h2 h3 => absurd ⟨t, td, d', h1, h2, h3⟩ h⟩
    exact ⟨fun uri r => (h0 uri r).choose, fun t td uri d' h1 h2 h3 r => (h0 uri r).choose_spec t td d' h1 h2 h3⟩
  obtain ⟨V, hV⟩ := hV
  let C : TaskId → Nat → Nat := fun t r => cost defs d V ⟨false, t⟩ r + cost defs d V ⟨true, t⟩ r
  obtain ⟨E, hE⟩ := fixed hd r C
  let R := costR d r E
  let W : Wt := { E := E, R := R, C := fun t => C t (R t),
                  H := 1 + ((Inst.startEntries d true).map (fun x => E x.task.id)).sum, r := r }
  refine ⟨W, rfl, .mk (fun t _ => match callee d t with | some u => V u (R t.id) | none => W) ?_ ?_ ?_ ?_ ?_ ?_⟩
  · intro t; exact Nat.le_refl _
  · intro t
    have := hE t
    unfold costE at this
    exact Nat.le_of_eq this.symm
  · exact Nat.le_refl _
  · intro t td uri d' h1 h2 h3
    rw [callee_of h1 h2]
    exact (hV t td uri d' h1 h2 h3 _).2
  · intro t td uri d' h1 h2 h3
    rw [callee_of h1 h2]
    show _ ≤ (V uri (R t.id)).r
    rw [(hV t td uri d' h1 h2 h3 _).1]
    exact Nat.le_refl _
  · intro t td uri d' h1 h2 h3
    rw [callee_of h1 h2]
    have h4 : cost defs d V t (R t.id) = total d' (V uri (R t.id)) := by
      unfold cost
      rw [callee_of h1 h2]
      dsimp only
      rw [h3]
    show _ ≤ C t.id (R t.id)
    rw [← h4]
    obtain ⟨eh, k⟩ := t
    cases eh
    · exact Nat.le_add_right _ _
    · exact Nat.le_add_left _ _

theorem mem_allTasks {t : TaskRef} {td : TaskDef} (h : d.task? t = some td) : td ∈ allTasks d := by
  unfold Def.task? Def.graph at h
  unfold allTasks
  rw [List.mem_append]
  cases he : t.eh with
  | false =>
    rw [he] at h
    exact .inl (List.mem_of_find?_eq_some h)
  | true =>
    rw [he] at h
    cases hg : d.eh with
    | none => rw [hg] at h; simp at h
    | some g => rw [hg] at h; exact .inr (List.mem_of_find?_eq_some h)

theorem fits_layered {depth : String → Nat} (hl : Layered defs depth) (k : Nat) :
    ∀ d, NoCircle d → CallsBelow depth k d → ∀ r, ∃ W : Wt, W.r = r ∧ Fits defs d W := by
  induction k with
  | zero =>
    intro d hd hk r
    exact fits_of hd (fun t td uri d' h1 h2 _ => absurd (hk td (mem_allTasks h1) uri h2) (Nat.not_lt_zero _)) r
  | succ k ih =>
    intro d hd hk r
    refine fits_of hd (fun t td uri d' h1 h2 h3 => ih d' (hl.acyclic uri d' h3) fun x hx u hu => ?_) r
    have h4 := hk td (mem_allTasks h1) uri h2
    have h5 := hl.down uri d' h3 x hx u hu
    omega

/-! ### Runs -/

theorem full_init {W : Wt} (hf : Fits env.defs d W) (id uri : String) (ins : AMap String Val) :
    Full env.defs [W] (total d W) (init env id uri d ins) := by
  have hnew : ∀ (i : Nat) (I : Inst), (new id uri d).insts[i]? = some I → i = 0 ∧ I = { defn := d, uri := uri } := by
    intro i I h
    cases i with
    | zero => cases h; exact ⟨rfl, rfl⟩
    | succ i => cases h
  have h0 : Pot env.defs [W] W.H (new id uri d) := by
    refine ⟨⟨rfl, fun i I V h1 h2 => ?_, fun i I h1 => ?_, fun i I V a b h1 h2 h3 => ?_, fun w hw => ?_⟩, ?_⟩
    · obtain ⟨rfl, rfl⟩ := hnew i I h1
      cases h2
      exact hf
    · obtain ⟨rfl, rfl⟩ := hnew i I h1
      intro k o hk
      cases hk
    · obtain ⟨rfl, rfl⟩ := hnew i I h1
      cases h3
    · cases hw
    · simp [new, sumI, instPot, credSum, queuePot]
  have h1 := h0.startInstance (env := env) (i := 0) (I := { defn := d, uri := uri }) rfl rfl ins
  exact h1.full ((StartFrame.startInstance _ _ _).stack.trans rfl)

theorem rest_step {e : Eng} (h : NothingLeft env e) : NothingLeft env (e.step env) := by
  obtain ⟨hs, hn⟩ := h
  have h1 : ∀ n, NothingLeft env { e with stepID := n } := by
    intro n
    refine ⟨hs, ?_⟩
    unfold Spec.next at hn ⊢
    split at hn
    · rename_i hc
      refine (if_pos hc).trans ?_
      have : e.queue = [] := by
        cases hq : e.queue with
        | nil => rfl
        | cons w q =>
          have := List.getElem?_eq_none_iff.mp hn
          have := Nat.mod_lt (env.pick e) (show 0 < e.queue.length by rw [hq]; exact Nat.succ_pos _)
          omega
      show e.queue[_]? = none
      rw [this]
      rfl
    · rename_i hc
      exact if_neg hc
  by_cases hl : 0 < e.insts.length
  · rw [step_idle hs hn hl]
    exact h1 _
  · have : e.step env = e := by
      unfold Eng.step
      rw [hs]
      dsimp only
      unfold Eng.doStep
      rw [List.getElem?_eq_none_iff.mpr (by omega)]
    rw [this]
    exact h1 e.stepID

theorem rest_run {e : Eng} (h : NothingLeft env e) (n : Nat) : NothingLeft env (run env e n) := by
  induction n with
  | zero => exact h
  | succ n ih => exact rest_step ih

/-- The bound for a flow whose costs are known. -/
theorem bound {e : Eng} {ws : List Wt} {a : Nat} (h : Full env.defs ws a e) (n : Nat) (hres : ∀ m, m < n → ¬ Restarts env (run env e m)) :
    NothingLeft env (run env e n) ∨ ∃ ws' b, Full env.defs ws' b (run env e n) ∧ b + n ≤ a + loopRounds env e n := by
  induction n with
  | zero => exact .inr ⟨ws, a, h, Nat.le_add_right _ _⟩
  | succ n ih =>
    rcases ih (fun m hm => hres m (by omega)) with h1 | ⟨ws', b, h1, h2⟩
    · exact .inl (rest_step h1)
    · by_cases hr : NothingLeft env (run env e n)
      · exact .inl (rest_step hr)
      · have hcount : loopRounds env e (n + 1) = loopRounds env e n + if loopsBack env (run env e n) then 1 else 0 := by
          unfold Spec.loopRounds
          rw [List.range_succ, List.countP_append, List.countP_singleton]
        rw [hcount]
        obtain ⟨ws2, h3⟩ := h1.step hr (hres n (by omega))
        refine .inr ?_
        rcases h3 with ⟨h3, h4⟩ | ⟨a', h3, h4⟩
        · exact ⟨ws2, b, h4, by rw [if_pos h3]; omega⟩
        · exact ⟨ws2, a', h4, by omega⟩

theorem bound' {e : Eng} {ws : List Wt} {a : Nat} (h : Full env.defs ws a e) (n : Nat) (hres : ∀ m, m < n → ¬ Restarts env (run env e m)) :
    NothingLeft env (run env e n) ∨ n ≤ a + loopRounds env e n := by
  rcases bound h n hres with h1 | ⟨_, _, _, h1⟩
  · exact .inl h1
  · exact .inr (by omega)

end Flow.Bnd
