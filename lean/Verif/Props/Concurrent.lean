import Verif.Proofs.ConcLock
import Verif.Spec.Plain

/-
C42, C43, C44: concurrent task execution. The statements are about all interleavings (`Conc.Reach`).
-/

namespace Flow

open Spec Conc

/-! ### C42 -/

/-- C42: whatever the interleaving, `enterTasks` puts a task instance on the work queue at most once. -/
theorem C42_once {prio : Bool} {d : Def} {uri : String} {s : St} (h : Reach prio d uri s) (o : Nat) :
    s.log.count (.entered o) ≤ 1 := by
  rw [(LockOK.reach h).log o]
  split <;> omega

/-- Two predecessors of J, and a task behind it. -/
def joinDef : Def :=
  { name := "f", main := ⟨[tk "A", tk "B", tk "J", tk "K"], deps 0 [("A", "J"), ("B", "J"), ("J", "K")]⟩ }

/-- The activity succeeds and every expression is true. -/
def allTrue : Res := .done (fun _ => .ok true) false

/-- Goroutine `g` takes `k` steps. -/
def nexts (g k : Nat) : List Label := List.replicate k (.next g)

theorem reach_runs {prio : Bool} {d : Def} {uri : String} : ∀ (ls : List Label) {s s' : St}, Reach prio d uri s →
    runs prio s ls = some s' → Reach prio d uri s'
  | [], _, _, h, hr => by cases hr; exact h
  | l :: ls, s, s', h, hr => by
    unfold runs at hr
    cases hs : step prio s l with
    | none => rw [hs] at hr; cases hr
    | some s1 => rw [hs] at hr; exact reach_runs ls (.step h hs) hr

/-- A finishes and enters J (goroutine 1); J finishes and enters K (goroutine 3), while B (goroutine 2), finished too,
waits for the lock; K finishes (goroutine 4). -/
def joinLabels : List Label :=
  nexts 0 8 ++ [.pop 1, .pop 2, .exec 1 allTrue, .exec 2 allTrue] ++ nexts 1 3 ++ nexts 2 4 ++ nexts 1 7 ++
    [.pop 3, .exec 3 allTrue] ++ nexts 3 10 ++ nexts 2 5 ++ [.pop 4, .exec 4 allTrue] ++ nexts 4 5

/-- The hypothesis holds for a run in which A, B, J and K are scheduled, each once. -/
example : ∃ s, Reach true joinDef "u" s ∧ s.log = [.entered 3, .entered 2, .entered 1, .entered 0] ∧
    s.inst.objs.map (·.task.id) = ["A", "B", "J", "K", "J"] :=
  ⟨_, reach_runs joinLabels .init rfl, by decide, by decide⟩

/-! ### C43 -/

/-- C43, as far as it holds: as long as no task was skipped, a goroutine that still has something to do can go on, or it
waits for the lock of another goroutine that can go on. Missing: flows in which a task is skipped, see `C43_negation`. -/
theorem C43_progress_partial {prio : Bool} {d : Def} {uri : String} {s : St} (h : Reach prio d uri s) (hk : ¬ Skipped s) {g : Nat}
    (hg : s.gs g ≠ []) : CanMove prio s g ∨ ∃ k, k ≠ g ∧ s.lock = some k ∧ CanMove prio s k := by
  rcases Classical.em (CanMove prio s g) with hc | hc
  · exact .inl hc
  right
  have hone : ∀ k, s.lock = some k → s.gs k ≠ [] ∧ CanMove prio s k := by
    intro k hl
    have hheld := (LockOK.reach h).held k
    rw [if_pos hl] at hheld
    have hne : s.gs k ≠ [] := fun e => by rw [e] at hheld; cases hheld
    refine ⟨hne, ?_⟩
    rcases Classical.em (CanMove prio s k) with hm | hm
    · exact hm
    · obtain ⟨es, rest, hs, _⟩ := blocked (ObjsOK.reach h) hne hm
      rcases TopOK.reach h with ht | ht
      · exact absurd ht hk
      · have := ht k _ _ hs
        rw [hs, List.countP_cons_of_neg (by simp [holding]), this] at hheld
        cases hheld
  obtain ⟨es, rest, hs, hl⟩ := blocked (ObjsOK.reach h) hg hc
  obtain ⟨k, hk⟩ := Option.isSome_iff_exists.mp hl
  obtain ⟨_, hm⟩ := hone k hk
  exact ⟨k, fun e => hc (e ▸ hm), hk, hm⟩

/-- Steps left until the lock is given back. -/
def left : Fr → Nat
  | .enter es => 3 * es.length
  | .test _ es => 3 * es.length + 2
  | .push _ es => 3 * es.length + 1
  | _ => 0

/-- C43, as far as it holds: `enterTasks` returns after at most three steps per successor, unless one is skipped. Missing:
successors that are skipped. -/
theorem C43_returns_partial {s s' : St} {g : Nat} {f : Fr} {rest : List Fr} (hg : s.gs g = f :: rest) (hf : holding f = true) (hs : Conc.next s g = some s') (hk : ¬ Skipped s') :
    (s'.gs g = rest ∧ s'.lock = none) ∨ ∃ f', s'.gs g = f' :: rest ∧ holding f' = true ∧ left f' < left f := by
  unfold Conc.next at hs
  rw [hg] at hs
  cases f with
  | enter es =>
    cases es with
    | nil => cases hs; exact .inl ⟨goto_self _ _ _, rfl⟩
    | cons x xs =>
      cases hs
      right
      unfold testStep
      split
      · exact ⟨_, goto_self _ _ _, rfl, by simp only [left, List.length_cons]; omega⟩
      · exact ⟨_, goto_self _ _ _, rfl, by simp only [left, List.length_cons]; omega⟩
  | test o es =>
    dsimp only at hs
    split at hs
    · cases hs
    · rename_i ob hob
      cases hr : (enterObj s.inst o ob.task).2 with
      | notReady =>
        rw [hr] at hs; cases hs
        exact .inr ⟨_, goto_self _ _ _, rfl, by simp only [left]; omega⟩
      | eval =>
        rw [hr] at hs; cases hs
        exact .inr ⟨_, goto_self _ _ _, rfl, by simp only [left]; omega⟩
      | skip =>
        cases hs
        obtain ⟨o', t', hev⟩ := enterObj_skip hob hr
        exact absurd ⟨o', t', (keeps_entered _ _ _).trace _ hev⟩ hk
  | push o es => cases hs; exact .inr ⟨_, goto_self _ _ _, rfl, by simp only [left]; omega⟩
  | run o => cases hf
  | rows gen rs => cases hf
  | finish t n es => cases hf
  | fail => cases hf
  | lock es => cases hf
  | release t => cases hf

/-- Is the event the report of a skipped task? -/
def isSkip : Flow.Ev → Bool
  | .taskStatus _ _ .skipped => true
  | _ => false

theorem not_skipped {s : St} (h : s.inst.trace.any isSkip = false) : ¬ Skipped s := by
  rintro ⟨o, t, hm⟩
  have := List.any_eq_false.mp h _ hm
  exact this rfl

/-- The hypotheses hold for a goroutine that enters J. -/
example : ∃ s, Reach true joinDef "u" s ∧ ¬ Skipped s ∧ (s.gs 1).length = 2 ∧ s.lock = some 1 ∧ (Conc.next s 1).isSome :=
  ⟨_, reach_runs (joinLabels.take 21) .init rfl, not_skipped (by decide), by decide, by decide, by decide⟩

/-- Steps of the program, any number, from `s`. -/
inductive Later (prio : Bool) (s : St) : St → Prop
  | refl : Later prio s s
  | step {s1 s2 : St} {l : Label} (h : Later prio s s1) (hs : step prio s1 l = some s2) : Later prio s s2

/-- C43 fails whenever a task is skipped and the flow is not complete then: the goroutine that holds the lock waits for it,
and nothing that other goroutines do changes that. -/
theorem C43_negation {prio : Bool} {d : Def} {uri : String} {s : St} (h : Reach prio d uri s) {g : Nat} {t : TaskRef} {n : Bool}
    {es : List TaskEntry} {rest : List Fr} (hg : s.gs g = .finish t n es :: rest) (hl : s.lock = some g)
    (hc : ((n && s.inst.allDone) || s.inst.force) = false) :
    ∃ s1, step prio s (.next g) = some s1 ∧ ∀ s2, Later prio s1 s2 → s2.gs g ≠ [] ∧ ¬ CanMove prio s2 g ∧ s2.lock = some g := by
  have hstep : step prio s (.next g) = some (s.goto g (.lock es :: .release t :: rest)) := by
    show Conc.next s g = _
    unfold Conc.next
    rw [hg]
    dsimp only
    unfold finishStep
    rw [if_neg (by simp [hc])]
  refine ⟨_, hstep, fun s2 h2 => ?_⟩
  have key : Reach prio d uri s2 ∧ s2.gs g = .lock es :: .release t :: rest ∧ s2.lock = some g := by
    induction h2 with
    | refl => exact ⟨.step h hstep, goto_self _ _ _, hl⟩
    | step _ hs ih =>
      obtain ⟨h1, h2, h3⟩ := ih
      have := Stuck.step (LockOK.reach h1) ⟨h3, _, _, h2⟩ hs
      exact ⟨.step h1 hs, this.1.trans h2, this.2⟩
  obtain ⟨_, h4, h5⟩ := key
  refine ⟨(by rw [h4]; simp), ?_, h5⟩
  rintro (⟨r, s3, h6⟩ | ⟨s3, h6⟩)
  · unfold exec at h6; rw [h4] at h6; cases h6
  · unfold Conc.next at h6; rw [h4] at h6; dsimp only at h6; rw [h5] at h6; cases h6

/-- A → B with a condition, and B → C. -/
def skipDef : Def :=
  { name := "f", main := ⟨[tk "A", tk "B", tk "C"], [⟨0, "A", "B", .expression, ""⟩, ⟨1, "B", "C", .dependency, ""⟩]⟩ }

/-- A finishes, the condition is false. -/
def skipLabels : List Label := nexts 0 5 ++ [.pop 1, .exec 1 (.done (fun _ => .ok false) false)] ++ nexts 1 9

/-- C43 fails: A finished and its successor B is skipped; the flow is active, and nothing can happen any more. -/
theorem C43_negation_case : ∃ s, Reach true skipDef "u" s ∧ s.inst.status = .active ∧ s.queue = [] ∧ (s.gs 1).length = 4 ∧
    s.lock = some 1 ∧ ∀ l, step true s l = none := by
  refine ⟨_, reach_runs skipLabels .init rfl, by decide, by decide, by decide, by decide, fun l => ?_⟩
  cases l with
  | pop g => rfl
  | exec g r =>
    match g with
    | 0 => rfl
    | 1 => rfl
    | g + 2 => rfl
  | next g =>
    match g with
    | 0 => rfl
    | 1 => rfl
    | g + 2 => rfl

/-- C43, outside concurrent mode: `UpdateAttrs` returns with the attributes set. -/
theorem C43_update_partial (m attrs : AMap String Val) : runOps false m (updateAttrsOps false attrs) = (attrs.foldl (fun m p => m.set p.1 p.2) m, true) := by
  unfold updateAttrsOps
  rw [if_neg (by simp), if_neg (by simp), List.nil_append, List.append_nil]
  induction attrs generalizing m with
  | nil => rfl
  | cons p ps ih => exact ih (m.set p.1 p.2)

/-- C43 fails for `UpdateAttrs`: in concurrent mode it takes the lock and then waits for it, nothing is written. -/
theorem C43_negation_update (m attrs : AMap String Val) (h : attrs ≠ []) : runOps false m (updateAttrsOps true attrs) = (m, false) := by
  cases attrs with
  | nil => exact absurd rfl h
  | cons p ps => rfl

/-! ### C44 -/

/-- C44 fails: after J was scheduled by A, executed and released, B enters it again. A new task instance of J stays in the
table, its links undecided; when K has finished, no work is left, and the flow is still active. -/
theorem C44_negation : ∃ s, Reach true joinDef "u" s ∧ s.inst.status = .active ∧ s.queue = [] ∧ (∀ g, s.gs g = []) ∧
    (s.inst.objs.map (fun x => (x.task.id, x.status))) = [("A", .done), ("B", .done), ("J", .done), ("K", .done), ("J", .entered)] ∧
    ∀ l, step true s l = none := by
  refine ⟨_, reach_runs joinLabels .init rfl, by decide, by decide, fun g => ?_, by decide, fun l => ?_⟩
  · match g with
    | 0 => rfl
    | 1 => rfl
    | 2 => rfl
    | 3 => rfl
    | 4 => rfl
    | g + 5 => rfl
  · cases l with
    | pop g => rfl
    | exec g r =>
      match g with
      | 0 => rfl
      | 1 => rfl
      | 2 => rfl
      | 3 => rfl
      | 4 => rfl
      | g + 5 => rfl
    | next g =>
      match g with
      | 0 => rfl
      | 1 => rfl
      | 2 => rfl
      | 3 => rfl
      | 4 => rfl
      | g + 5 => rfl

end Flow
