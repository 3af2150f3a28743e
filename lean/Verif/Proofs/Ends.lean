import Verif.Spec.Ends
import Verif.Props.Cycle
import Verif.Props.Run
import Verif.Proofs.BoundRun
import Verif.Proofs.Fail
import Verif.Proofs.Steps

/-
The functions that a step of a run calls come to an end (C103): a task whose links lead back to it is never skipped, so the
recursion of skipped tasks follows links that do not.
-/

namespace Flow.Ends
open Spec Eng

variable {env : Env} {d : Def}

/-! ### A measure that falls along the links of skipped tasks -/

/-- The links of the flow and of its error handler in one graph. -/
def both (d : Def) : Graph := ⟨[], allLinks d⟩

theorem mem_graph {b : Bool} {l : LinkDef} (h : l ∈ (d.graph b).links) : l ∈ allLinks d := by
  unfold allLinks
  cases b with
  | false => exact List.mem_append_left _ h
  | true =>
    refine List.mem_append_right _ ?_
    unfold Def.graph at h
    cases hd : d.eh with
    | none => rw [hd] at h; exact absurd h List.not_mem_nil
    | some g => rw [hd] at h; exact h

theorem graph_mem {l : LinkDef} (h : l ∈ allLinks d) : ∃ b, l ∈ (d.graph b).links := by
  unfold allLinks at h
  rcases List.mem_append.1 h with h | h
  · exact ⟨false, h⟩
  · refine ⟨true, ?_⟩
    unfold Def.graph
    cases hd : d.eh with
    | none => rw [hd] at h; exact absurd h List.not_mem_nil
    | some g => rw [hd] at h; exact h

/-- The task is an end of a link of this part. -/
def End (d : Def) (b : Bool) (t : TaskId) : Prop := ∃ l ∈ (d.graph b).links, l.src = t ∨ l.dst = t

theorem apart_end (h : Apart d) {b c : Bool} {t : TaskId} (hb : End d b t) (hc : End d c t) : b = c := by
  have key : End d false t → End d true t → False := by
    rintro ⟨l, hl, h1⟩ ⟨k, hk, h2⟩
    obtain ⟨a1, a2, a3, a4⟩ := h l hl k hk
    rcases h1 with h1 | h1 <;> rcases h2 with h2 | h2
    · exact a1 (h1.trans h2.symm)
    · exact a2 (h1.trans h2.symm)
    · exact a3 (h1.trans h2.symm)
    · exact a4 (h1.trans h2.symm)
  cases b <;> cases c
  · rfl
  · exact (key hb hc).elim
  · exact (key hc hb).elim
  · rfl

theorem apart_path (h : Apart d) {b : Bool} {a c : TaskId} (hp : Path (both d) a c) (hc : End d b c) : Path (d.graph b) a c ∧ End d b a := by
  induction hp with
  | refl a => exact ⟨.refl a, hc⟩
  | @step l c hl _ ih =>
    obtain ⟨h1, h2⟩ := ih hc
    obtain ⟨b', hb'⟩ := graph_mem hl
    have := apart_end h h2 ⟨l, hb', .inr rfl⟩
    subst this
    exact ⟨.step hb' h1, l, hb', .inl rfl⟩

theorem apart_cycle (h : Apart d) {b : Bool} {t : TaskId} (ht : End d b t) (hc : OnCycle (both d) t) : OnCycle (d.graph b) t := by
  obtain ⟨l, hl, rfl, hp⟩ := hc
  obtain ⟨h1, h2⟩ := apart_path h hp ht
  obtain ⟨b', hb'⟩ := graph_mem hl
  have := apart_end h h2 ⟨l, hb', .inr rfl⟩
  subst this
  exact ⟨l, hb', rfl, h1⟩

/-- How many links can be reached from the task. -/
noncomputable def reach (d : Def) (t : TaskId) : Nat :=
  open Classical in (allLinks d).countP (fun l => decide (Path (both d) t l.src))

open Classical in
theorem reach_lt {l : LinkDef} (hl : l ∈ allLinks d) (hc : ¬ OnCycle (both d) l.src) : reach d l.dst < reach d l.src := by
  have key : ∀ ls : List LinkDef, (ls.countP (fun k => decide (Path (both d) l.dst k.src)) ≤
      ls.countP (fun k => decide (Path (both d) l.src k.src))) ∧
      (l ∈ ls → ls.countP (fun k => decide (Path (both d) l.dst k.src)) <
        ls.countP (fun k => decide (Path (both d) l.src k.src))) := by
    intro ls
    induction ls with
    | nil => exact ⟨Nat.le_refl _, fun h => nomatch h⟩
    | cons k ks ih =>
      rw [List.countP_cons, List.countP_cons]
      have hle : Path (both d) l.dst k.src → Path (both d) l.src k.src := fun hp => .step hl hp
      refine ⟨?_, fun hm => ?_⟩
      · have := ih.1
        split <;> split
        · omega
        · rename_i h1 h2; exact absurd (decide_eq_true (hle (of_decide_eq_true h1))) h2
        · omega
        · omega
      · rcases List.mem_cons.1 hm with rfl | hm
        · rw [if_neg, if_pos]
          · have := ih.1; omega
          · exact decide_eq_true (.refl _)
          · intro h1; exact hc ⟨l, hl, rfl, of_decide_eq_true h1⟩
        · have := ih.2 hm
          split <;> split
          · omega
          · rename_i h1 h2; exact absurd (decide_eq_true (hle (of_decide_eq_true h1))) h2
          · omega
          · omega
  exact (key (allLinks d)).2 hl

theorem tame_low (h : Tame d) : ∃ m : TaskId → Nat, ∀ (tr : List Ev) (o : Nat) (t : TaskRef), TraceOK d (.taskStatus o t .skipped :: tr) →
    ∀ l ∈ d.toLinks t, m l.dst < m t.id := by
  rcases h with ⟨rank, hr⟩ | ⟨h1, h2⟩
  · let M := ((allLinks d).map (fun l => rank l.dst)).sum
    have hM : ∀ l ∈ allLinks d, rank l.dst ≤ M := fun l hl => Bnd.le_sum (List.mem_map_of_mem (f := fun l => rank l.dst) hl)
    refine ⟨fun t => M - rank t, fun tr o t _ l hl => ?_⟩
    have hl' : l ∈ (d.graph t.eh).links ∧ l.src = t.id := by simpa [Def.toLinks, Graph.toLinks] using hl
    have a1 := hM l (mem_graph hl'.1)
    have a2 := hr l (mem_graph hl'.1)
    rw [hl'.2] at a2
    show M - rank l.dst < M - rank t.id
    omega
  · refine ⟨reach d, fun tr o t ht l hl => ?_⟩
    have hl' : l ∈ (d.graph t.eh).links ∧ l.src = t.id := by simpa [Def.toLinks, Graph.toLinks] using hl
    have hq := cycle_quiet h1 ht t
    rw [← hl'.2]
    refine reach_lt (mem_graph hl'.1) fun hc => ?_
    have h3 := apart_cycle h2 ⟨l, hl'.1, .inl rfl⟩ hc
    rw [hl'.2] at h3
    exact hq ⟨_, h3, .refl _⟩ _ (List.mem_cons_self ..) rfl

/-! ### The functions on the stack come to an end -/

/-- In the execution that begins with `e` there is a state with this stack, and the same flow instance is being executed. -/
def Comes (env : Env) (e : Eng) (st : List Frame) : Prop := ∃ n, (run env e n).stack = st ∧ (run env e n).cur = e.cur

theorem Comes.after {e : Eng} {st' : List Frame} {n : Nat} (hc : (run env e n).cur = e.cur) (h : Comes env (run env e n) st') : Comes env e st' := by
  obtain ⟨k, h1, h2⟩ := h
  exact ⟨n + k, by rw [run_add]; exact h1, by rw [run_add, h2, hc]⟩

theorem Comes.step {e : Eng} {st : List Frame} (hc : (e.step env).cur = e.cur) (h : Comes env (e.step env) st) : Comes env e st :=
  Comes.after (n := 1) hc h

theorem Comes.now {e : Eng} {st : List Frame} (h : e.stack = st) : Comes env e st := ⟨0, h, rfl⟩

theorem complete_cur (e : Eng) (i : Nat) : (e.complete i).cur = e.cur := by
  unfold Eng.complete
  split
  · rfl
  · dsimp only
    split
    · rfl
    · split <;> rfl

theorem finishTask_stack {e : Eng} {i : Nat} {I : Inst} (hI : e.insts[i]? = some I) (t : TaskRef) (notify : Bool) (es : List TaskEntry) (rest : List Frame) :
    (e.finishTask i t notify es rest).cur = i ∧
    ((e.finishTask i t notify es rest).stack = .release t :: rest ∨ (e.finishTask i t notify es rest).stack = .enter es :: .release t :: rest) := by
  unfold Eng.finishTask
  rw [hI]
  dsimp only
  split
  · exact ⟨rfl, .inl rfl⟩
  · exact ⟨rfl, .inr rfl⟩

/-- One entry of a list of tasks to be entered. -/
theorem enterEntry_stack {e : Eng} (ok : EngOK e) {m : TaskId → Nat}
    (hm : ∀ (tr : List Ev) (o : Nat) (t : TaskRef), TraceOK d (.taskStatus o t .skipped :: tr) → ∀ l ∈ d.toLinks t, m l.dst < m t.id)
    {I : Inst} (hI : e.insts[e.cur]? = some I) (hd : I.defn = d) (x : TaskEntry) (xs : List TaskEntry) (rest : List Frame) :
    (e.enterEntry env x xs rest).cur = e.cur ∧
    ((e.enterEntry env x xs rest).stack = .enter xs :: rest ∨ (e.enterEntry env x xs rest).stack = rest ∨
      ∃ t, (e.enterEntry env x xs rest).stack = .release t :: .enter xs :: rest ∨
        ∃ es : List TaskEntry, (∀ y ∈ es, m y.task.id < m x.task.id) ∧ (e.enterEntry env x xs rest).stack = .enter es :: .release t :: .enter xs :: rest) := by
  unfold Eng.enterEntry
  rw [hI]
  dsimp only
  have hok := ok.ok _ I hI
  obtain ⟨hext, _, h3⟩ := enterTask_ext I x.task
  obtain ⟨_, ob', hob', hid⟩ := Bnd.enterTask_chg (W := ⟨fun _ => 0, fun _ => 0, fun _ => 0, 0, 0⟩) I x.task hok.tasks
  split
  · exact ⟨rfl, .inl rfl⟩
  · split
    · exact ⟨rfl, .inl rfl⟩
    · exact ⟨rfl, .inr (.inl rfl)⟩
  · rename_i hev
    obtain ⟨ob, hob, hcs⟩ := h3 hev
    rw [hob'] at hob; cases hob
    have h1 : (e.modI e.cur (fun _ => (I.enterTask x.task).1)).insts[e.cur]? = some (I.enterTask x.task).1 := modI_self hI _
    unfold Eng.taskSkipped
    rw [h1]
    dsimp only
    rw [hob']
    dsimp only
    have h2 : ((e.modI e.cur (fun _ => (I.enterTask x.task).1)).modI e.cur (fun _ => ((I.enterTask x.task).1.skipTask (I.enterTask x.task).2.1 ob'.task).1)).insts[e.cur]? =
      some ((I.enterTask x.task).1.skipTask (I.enterTask x.task).2.1 ob'.task).1 := modI_self h1 _
    obtain ⟨h4, h5⟩ := finishTask_stack h2 ob'.task (((I.enterTask x.task).1.defn.toLinks ob'.task).length = 0)
      ((I.enterTask x.task).1.skipTask (I.enterTask x.task).2.1 ob'.task).2 (.enter xs :: rest)
    refine ⟨h4, .inr (.inr ⟨ob'.task, h5.imp id fun h => ⟨_, ?_, h⟩⟩)⟩
    intro y hy
    unfold Inst.skipTask at hy
    dsimp only at hy
    unfold rowEntries skipRows at hy
    simp only [List.map_map, List.mem_map, Function.comp] at hy
    obtain ⟨l, hl, rfl⟩ := hy
    have hdn : (I.enterTask x.task).1.defn = d := hext.defn.trans hd
    have hok' := hext.ok hok
    have htr : TraceOK d (.taskStatus (I.enterTask x.task).2.1 ob'.task .skipped :: (I.enterTask x.task).1.trace) := by
      have a := hcs.evOK hok'
      have b := hok'.trace
      rw [hdn] at a b
      exact ⟨a, b⟩
    rw [hdn] at hl
    have := hm _ _ _ htr l hl
    rw [hid] at this
    exact this

theorem step_enter {e : Eng} {x : TaskEntry} {xs : List TaskEntry} {rest : List Frame} (h : e.stack = .enter (x :: xs) :: rest) :
    e.step env = e.enterEntry env x xs rest := by
  unfold Eng.step; rw [h]

theorem step_nil {e : Eng} {rest : List Frame} (h : e.stack = .enter [] :: rest) : e.step env = { e with stack := rest } := by
  unfold Eng.step; rw [h]

theorem step_release {e : Eng} {t : TaskRef} {rest : List Frame} (h : e.stack = .release t :: rest) :
    e.step env = { e.modI e.cur (fun I => I.release t) with stack := rest } := by
  unfold Eng.step; rw [h]

/-- The flow instance that is being executed has the definition. -/
def Cur (d : Def) (e : Eng) : Prop := ∃ I, e.insts[e.cur]? = some I ∧ I.defn = d

theorem Cur.run {e : Eng} (h : Cur d e) (ok : EngOK e) {n : Nat} (hc : (run env e n).cur = e.cur) : Cur d (run env e n) := by
  obtain ⟨I, h1, h2⟩ := h
  obtain ⟨J, h3, h4⟩ := (good_run (env := env) e n ok).2 _ I h1
  exact ⟨J, by rw [hc]; exact h3, h4.defn.trans h2⟩

theorem entries_end {m : TaskId → Nat} {k : Nat}
    (ih : ∀ (e : Eng) (x : TaskEntry) (xs : List TaskEntry) (rest : List Frame), EngOK e → Cur d e → m x.task.id < k → e.stack = .enter (x :: xs) :: rest →
      Comes env e (.enter xs :: rest) ∨ Comes env e rest)
    (es : List TaskEntry) (hes : ∀ y ∈ es, m y.task.id < k) (e : Eng) (rest : List Frame) (ok : EngOK e) (hc : Cur d e) (hs : e.stack = .enter es :: rest) :
    Comes env e rest := by
  induction es generalizing e with
  | nil => exact .step (by rw [step_nil hs]) (.now (by rw [step_nil hs]))
  | cons y ys ihs =>
    rcases ih e y ys rest ok hc (hes y (List.mem_cons_self ..)) hs with ⟨n, h1, h2⟩ | h
    · exact .after h2 (ihs (fun z hz => hes z (List.mem_cons_of_mem _ hz)) _ (good_run e n ok).1 (hc.run ok h2) h1)
    · exact h

theorem entry_ends {m : TaskId → Nat}
    (hm : ∀ (tr : List Ev) (o : Nat) (t : TaskRef), TraceOK d (.taskStatus o t .skipped :: tr) → ∀ l ∈ d.toLinks t, m l.dst < m t.id) (k : Nat) :
    ∀ (e : Eng) (x : TaskEntry) (xs : List TaskEntry) (rest : List Frame), EngOK e → Cur d e → m x.task.id < k → e.stack = .enter (x :: xs) :: rest →
      Comes env e (.enter xs :: rest) ∨ Comes env e rest := by
  induction k with
  | zero => intro e x xs rest _ _ h; omega
  | succ k ih =>
    intro e x xs rest ok hc hk hs
    obtain ⟨I, hI, hd⟩ := id hc
    have hst := step_enter (env := env) hs
    obtain ⟨h1, h2⟩ := enterEntry_stack (env := env) ok hm hI hd x xs rest
    rw [← hst] at h1 h2
    have ok' : EngOK (e.step env) := (Good.step e ok).1
    have hc' : Cur d (e.step env) := hc.run (n := 1) ok h1
    have rel : ∀ {f : Eng} {t : TaskRef} {st : List Frame}, f.stack = .release t :: st → Comes env f st := fun h =>
      .step (by rw [step_release h]; rfl) (.now (by rw [step_release h]))
    rcases h2 with h2 | h2 | ⟨t, h2 | ⟨es, h3, h2⟩⟩
    · exact .inl (.step h1 (.now h2))
    · exact .inr (.step h1 (.now h2))
    · exact .inl (.step h1 (rel h2))
    · obtain ⟨n, h4, h5⟩ := entries_end ih es (fun y hy => by have := h3 y hy; omega) _ _ ok' hc' h2
      exact .inl (.step h1 (.after h5 (rel h4)))

/-- All functions on the stack return. -/
theorem stack_ends (h : Tame d) (st : List Frame) : ∀ (e : Eng), EngOK e → Cur d e → e.stack = st → Comes env e [] := by
  obtain ⟨m, hm⟩ := tame_low h
  induction st with
  | nil => exact fun e _ _ hs => .now hs
  | cons fr rest ih =>
    intro e ok hc hs
    have go : Comes env e rest → Comes env e [] := by
      rintro ⟨n, h1, h2⟩
      exact .after h2 (ih _ (good_run e n ok).1 (hc.run ok h2) h1)
    cases fr with
    | release t => exact go (.step (by rw [step_release hs]; rfl) (.now (by rw [step_release hs])))
    | enter es =>
      have hb : ∃ k, ∀ y ∈ es, m y.task.id < k := ⟨(es.map (fun y => m y.task.id)).sum + 1, fun y hy =>
        Nat.lt_succ_of_le (Bnd.le_sum (List.mem_map_of_mem (f := fun y => m y.task.id) hy))⟩
      obtain ⟨k, hk⟩ := hb
      exact go (entries_end (entry_ends hm k) es hk e rest ok hc hs)

theorem none_ends (st : List Frame) : ∀ (e : Eng), e.insts[e.cur]? = none → e.stack = st → Comes env e [] := by
  induction st with
  | nil => exact fun e _ hs => .now hs
  | cons fr rest ih =>
    intro e hn hs
    cases fr with
    | release t =>
      have h := step_release (env := env) hs
      refine .step (by rw [h]; rfl) (ih _ ?_ (by rw [h]))
      rw [h]
      show (e.modI e.cur (fun I => I.release t)).insts[e.cur]? = none
      rw [modI_getElem?, if_pos rfl, hn]; rfl
    | enter es =>
      cases es with
      | nil =>
        have h := step_nil (env := env) hs
        exact .step (by rw [h]) (ih _ (by rw [h]; exact hn) (by rw [h]))
      | cons x xs =>
        have h : e.step env = { e with stack := rest } := by
          rw [step_enter hs]; unfold Eng.enterEntry; rw [hn]
        exact .step (by rw [h]) (ih _ (by rw [h]; exact hn) (by rw [h]))

/-! ### The definitions of all flow instances -/

theorem ops_all {P : Def → Prop} (hP : ∀ u d, env.defs u = .ok (some d) → P d) {k : Nat} {q : Option Nat} {e e' : Eng} (h : Ops env k q e e') :
    All (fun I => P I.defn) e → All (fun I => P I.defn) e' := by
  induction h with
  | refl e => exact fun h => h
  | trans _ _ ih1 ih2 => exact fun h => ih2 (ih1 h)
  | ctl h => intro hA i I hI; rw [h] at hI; exact hA i I hI
  | calm j f h => exact fun hA => hA.modI j f fun I hI hp => by rw [(h I hI).defn]; exact hp
  | same o f hq h => exact fun hA => hA.modI k f fun I hI hp => by rw [(h I hI).defn]; exact hp
  | @sub e o uri d inputs hd =>
    intro hA j J hJ
    by_cases hj : j < e.insts.length
    · have h1 := (StartFrame.startInstance (env := env) e.insts.length (e.newEmbedded k o uri d) inputs).others j (by omega)
      rw [h1, newEmbedded_getElem? _ _ _ _ _ hj] at hJ
      exact hA j J hJ
    · have hlen := (StartFrame.startInstance (env := env) e.insts.length (e.newEmbedded k o uri d) inputs).len
      have hj2 : j = e.insts.length := by
        have := (List.getElem?_eq_some_iff.1 hJ).1
        rw [hlen, newEmbedded_length] at this
        omega
      subst hj2
      obtain ⟨I', h2, h3⟩ := startInstance_calm (env := env) (e.newEmbedded k o uri d) e.insts.length inputs (newEmbedded_new e k o uri d)
      rw [h2] at hJ; cases hJ
      rw [h3.defn]
      exact hP uri d hd
  | _ => exact fun hA => hA.modI k _ fun I _ hp => hp

/-- The status of a flow instance that has been started. -/
def Live (I : Inst) : Prop := I.status = .active ∨ I.status = .completed ∨ I.status = .failed

theorem ops_live {k : Nat} {q : Option Nat} {e e' : Eng} (h : Ops env k q e e') : All Live e → All Live e' := by
  induction h with
  | refl e => exact fun h => h
  | trans _ _ ih1 ih2 => exact fun h => ih2 (ih1 h)
  | ctl h => intro hA i I hI; rw [h] at hI; exact hA i I hI
  | calm j f h => exact fun hA => hA.modI j f fun I hI hp => by unfold Live; rw [(h I hI).status]; exact hp
  | same o f hq h => exact fun hA => hA.modI k f fun I hI hp => by unfold Live; rw [(h I hI).status]; exact hp
  | @sub e o uri d inputs hd =>
    intro hA j J hJ
    by_cases hj : j < e.insts.length
    · have h1 := (StartFrame.startInstance (env := env) e.insts.length (e.newEmbedded k o uri d) inputs).others j (by omega)
      rw [h1, newEmbedded_getElem? _ _ _ _ _ hj] at hJ
      exact hA j J hJ
    · have hlen := (StartFrame.startInstance (env := env) e.insts.length (e.newEmbedded k o uri d) inputs).len
      have hj2 : j = e.insts.length := by
        have := (List.getElem?_eq_some_iff.1 hJ).1
        rw [hlen, newEmbedded_length] at this
        omega
      subst hj2
      obtain ⟨I', h2, h3⟩ := startInstance_calm (env := env) (e.newEmbedded k o uri d) e.insts.length inputs (newEmbedded_new e k o uri d)
      rw [h2] at hJ; cases hJ
      exact .inl h3.status
  | completed => exact fun hA => hA.modI k _ fun I _ _ => .inr (.inl rfl)
  | failed _ => exact fun hA => hA.modI k _ fun I _ _ => .inr (.inr rfl)
  | unhandled _ => exact fun hA => hA.modI k _ fun I _ _ => .inr (.inr rfl)
  | _ => exact fun hA => hA.modI k _ fun I _ hp => hp

theorem init_inst (id uri : String) (d : Def) (ins : AMap String Val) {j : Nat} {J : Inst} (hJ : (Eng.init env id uri d ins).insts[j]? = some J) :
    J.defn = d ∧ J.status = .active := by
  have hlen := (StartFrame.startInstance (env := env) 0 (Eng.new id uri d) ins).len
  have hJ : (Eng.startInstance env (Eng.new id uri d) 0 ins).insts[j]? = some J := hJ
  have hj : j = 0 := by
    have := (List.getElem?_eq_some_iff.1 hJ).1
    rw [hlen] at this
    simp [Eng.new] at this
    exact this
  subst hj
  obtain ⟨I', h2, h3⟩ := startInstance_calm (env := env) (Eng.new id uri d) 0 ins (I := { defn := d, uri := uri }) rfl
  rw [h2] at hJ; cases hJ
  exact ⟨h3.defn, h3.status⟩

theorem live {e : Eng} (h : Reachable env e) : All Live e := by
  obtain ⟨id, uri, d, ins, n, rfl⟩ := h
  induction n with
  | zero => exact fun j J hJ => .inl (init_inst id uri d ins hJ).2
  | succ n ih => exact ops_live (Ops.step (engOK_run id uri d ins n).length_pos) ih

/-! ### The run -/

/-- Everything that has to hold between two turns of the loop. -/
structure Sound (env : Env) (r : Run) : Prop where
  ok : EngOK r.eng
  tame : All (fun I => Tame I.defn) r.eng
  going : r.done = false

theorem Sound.step (hd : ∀ u d, env.defs u = .ok (some d) → Tame d) {r : Run} {e' : Eng} (h : Sound env r) (he : e' = r.eng.step env) :
    EngOK e' ∧ All (fun I => Tame I.defn) e' := by
  subst he
  exact ⟨(Good.step _ h.ok).1, ops_all hd (Ops.step h.ok.length_pos) h.tame⟩

theorem run_ahead (c : RunCfg) (r : Run) (m n : Nat) : Run.run env c r (m + n) = Run.run env c (Run.run env c r m) n := by
  induction n with
  | zero => rfl
  | succ n ih => show (Run.run env c r (m + n)).step env c = _; rw [ih]; rfl

theorem drained (c : RunCfg) (hd : ∀ u d, env.defs u = .ok (some d) → Tame d) (k : Nat) : ∀ r : Run, Sound env r → (run env r.eng k).stack = [] →
    ∃ j, Sound env (Run.run env c r j) ∧ (Run.run env c r j).eng.stack = [] ∧ (Run.run env c r j).count = r.count := by
  induction k with
  | zero => exact fun r h hs => ⟨0, h, hs, rfl⟩
  | succ k ih =>
    intro r h hs
    cases hst : r.eng.stack with
    | nil => exact ⟨0, h, hst, rfl⟩
    | cons fr rest =>
      have h1 : r.step env c = { r with eng := r.eng.step env } := by
        unfold Run.step
        rw [if_neg (by rw [h.going]; decide), hst]
      have h2 : run env (r.eng.step env) k = run env r.eng (k + 1) := by rw [Nat.add_comm, run_add]; rfl
      obtain ⟨a, b⟩ := h.step hd rfl
      obtain ⟨j, h3, h4, h5⟩ := ih { r with eng := r.eng.step env } ⟨a, b, h.going⟩ (by rw [h2]; exact hs)
      refine ⟨1 + j, ?_⟩
      have h6 : Run.run env c r 1 = { r with eng := r.eng.step env } := h1
      rw [run_ahead, h6]
      exact ⟨h3, h4, h5⟩

theorem ends (c : RunCfg) (hd : ∀ u d, env.defs u = .ok (some d) → Tame d) (L : Nat) : ∀ r : Run, Sound env r → (c.limit - r.count).toNat < L →
    ∃ n, (Run.run env c r n).done = true := by
  induction L with
  | zero => intro r _ h; omega
  | succ L ih =>
    intro r h hL
    obtain ⟨k, hk, _⟩ : Comes env r.eng [] := by
      cases hI : r.eng.insts[r.eng.cur]? with
      | none => exact none_ends _ _ hI rfl
      | some I => exact stack_ends (h.tame _ I hI) _ _ h.ok ⟨I, hI, rfl⟩ rfl
    obtain ⟨j, h1, h2, h3⟩ := drained c hd k r h hk
    suffices ∃ n, (Run.run env c (Run.run env c r j) n).done = true by
      obtain ⟨n, hn⟩ := this
      exact ⟨j + n, by rw [run_ahead]; exact hn⟩
    generalize Run.run env c r j = r' at h1 h2 h3
    have hst : r'.step env c = match r'.eng.insts[0]? with
        | none => r'.report c
        | some I =>
          if r'.goesOn c I.status then
            { r' with eng := r'.eng.step env, count := r'.count + 1, hasWork := I.status == .active && !r'.eng.queue.isEmpty }
          else r'.report c := by
      unfold Run.step
      rw [if_neg (by rw [h1.going]; decide), h2]
      rfl
    cases hI : r'.eng.insts[0]? with
    | none =>
      rw [hI] at hst
      exact ⟨1, by show (r'.step env c).done = true; rw [hst]; exact Run.report_done _⟩
    | some I =>
      rw [hI] at hst
      dsimp only at hst
      by_cases hg : r'.goesOn c I.status = true
      · rw [if_pos hg] at hst
        have hlt : r'.count < c.limit := by
          unfold Run.goesOn at hg
          simp only [Bool.and_eq_true, decide_eq_true_eq] at hg
          exact hg.2
        obtain ⟨a, b⟩ := h1.step hd rfl
        obtain ⟨n, hn⟩ := ih { r' with eng := r'.eng.step env, count := r'.count + 1, hasWork := I.status == .active && !r'.eng.queue.isEmpty }
          ⟨a, b, h1.going⟩ (by show (c.limit - (r'.count + 1)).toNat < L; omega)
        refine ⟨1 + n, ?_⟩
        rw [run_ahead]
        show (Run.run env c (r'.step env c) n).done = true
        rw [hst]
        exact hn
      · rw [if_neg hg] at hst
        exact ⟨1, by show (r'.step env c).done = true; rw [hst]; exact Run.report_done _⟩

/-! ### A task that is in the table is skipped -/

/-- What the skipped task leaves as it is. -/
structure Kept (I J : Inst) (changed : List LinkDef) : Prop where
  defn : J.defn = I.defn
  tasks : J.tasks = I.tasks
  force : J.force = I.force
  objs : ∀ (p : Nat) ob, I.objs[p]? = some ob → ∃ ob', J.objs[p]? = some ob' ∧ ob'.task = ob.task
  links : ∀ k, (∀ l ∈ changed, l.id ≠ k) → J.linkSt k = I.linkSt k

theorem enter_skip {I : Inst} {t : TaskRef} {o : Nat} {ob : Obj} (ht : I.tasks.get? t.id = some o) (ho : I.objs[o]? = some ob)
    (hd : enterDecision ((I.defn.fromLinks ob.task).map (fun l => I.linkSt l.id)) = .skip) :
    (I.enterTask t).2 = (o, .skip) ∧ Kept I (I.enterTask t).1 [] := by
  have hf : I.findOrCreateTask t = (I, o) := by unfold Inst.findOrCreateTask; rw [ht]
  have hl : (I.defn.fromLinks ob.task).map (fun l => ((I.setTaskStatus o .entered).findLinks (I.defn.fromLinks ob.task)).linkSt l.id) =
      (I.defn.fromLinks ob.task).map (fun l => I.linkSt l.id) := by
    apply List.map_congr_left
    intro l _
    rw [findLinks_linkSt, setTaskStatus_linkSt]
  have he : I.enterTask t = (((I.setTaskStatus o .entered).findLinks (I.defn.fromLinks ob.task)).setTaskStatus o .skipped, o, .skip) := by
    unfold Inst.enterTask
    rw [hf]
    dsimp only
    rw [ho]
    dsimp only
    rw [hl, hd]
  refine ⟨by rw [he], (Calm.enterTask I t).defn, ?_, (Calm.enterTask I t).force, (enterTask_ext I t).1.objs, fun k _ => enterTask_linkSt I t k⟩
  rw [he]
  obtain ⟨_, _, _, a4, _⟩ := Bnd.set_facts I o .entered
  obtain ⟨_, _, _, b4, _⟩ := Bnd.set_facts ((I.setTaskStatus o .entered).findLinks (I.defn.fromLinks ob.task)) o .skipped
  exact b4.trans ((Bnd.Quiet.findLinks _ _).tasks.trans a4)

theorem skip_kept (I : Inst) (o : Nat) (t : TaskRef) : Kept I (I.skipTask o t).1 (I.defn.toLinks t) := by
  have hc := Calm.skipTask I o t
  refine ⟨hc.defn, ?_, hc.force, fun p ob h => ?_, fun k hk => ?_⟩
  · unfold Inst.skipTask
    obtain ⟨_, _, _, a4, _⟩ := Bnd.set_facts (I.findLinks (I.defn.toLinks t)) o .skipped
    exact (Bnd.Quiet.applyRows _ _).tasks.trans (a4.trans (Bnd.Quiet.findLinks _ _).tasks)
  · obtain ⟨ob', h1, h2, _⟩ := hc.work.1 p ob h
    exact ⟨ob', h1, h2⟩
  · unfold Inst.skipTask
    dsimp only
    rw [Inst.applyRows_linkSt_ne, setTaskStatus_linkSt, findLinks_linkSt]
    intro r hr
    unfold skipRows at hr
    obtain ⟨l, hl, rfl⟩ := List.mem_map.1 hr
    exact hk l hl

theorem skip_again {e : Eng} {x : TaskEntry} {rest : List Frame} (hs : e.stack = .enter [x] :: rest) {I : Inst} (hI : e.insts[e.cur]? = some I) {o : Nat} {ob : Obj}
    (ht : I.tasks.get? x.task.id = some o) (ho : I.objs[o]? = some ob) (hf : I.force = false)
    (hd : enterDecision ((I.defn.fromLinks ob.task).map (fun l => I.linkSt l.id)) = .skip) (hl : (I.defn.toLinks ob.task).length ≠ 0) :
    (e.step env).cur = e.cur ∧ (∃ J, (e.step env).insts[e.cur]? = some J ∧ Kept I J (I.defn.toLinks ob.task)) ∧
    (e.step env).stack = .enter (rowEntries ob.task.eh (skipRows (I.defn.toLinks ob.task))) :: .release ob.task :: .enter [] :: rest := by
  obtain ⟨h1, h2⟩ := enter_skip ht ho hd
  obtain ⟨ob', h3, h4⟩ := h2.objs o ob ho
  have hk := skip_kept (I.enterTask x.task).1 o ob.task
  rw [h2.defn] at hk
  have hstep : e.step env = { (e.modI e.cur (fun _ => (I.enterTask x.task).1)).modI e.cur (fun _ => ((I.enterTask x.task).1.skipTask o ob.task).1) with
      cur := e.cur, stack := .enter ((I.enterTask x.task).1.skipTask o ob.task).2 :: .release ob.task :: .enter [] :: rest } := by
    have a1 : (e.modI e.cur (fun _ => (I.enterTask x.task).1)).insts[e.cur]? = some (I.enterTask x.task).1 := modI_self hI _
    have a2 : ((e.modI e.cur (fun _ => (I.enterTask x.task).1)).modI e.cur (fun _ => ((I.enterTask x.task).1.skipTask o ob.task).1)).insts[e.cur]? =
      some ((I.enterTask x.task).1.skipTask o ob.task).1 := modI_self a1 _
    rw [step_enter hs]
    unfold Eng.enterEntry
    rw [hI]
    dsimp only
    rw [h1]
    dsimp only
    unfold Eng.taskSkipped
    rw [a1]
    dsimp only
    rw [h3]
    dsimp only
    rw [h4]
    unfold Eng.finishTask
    rw [a2]
    dsimp only
    rw [if_neg]
    rw [hk.force, h2.force, hf, h2.defn]
    simp [hl]
  rw [hstep]
  refine ⟨rfl, ⟨((I.enterTask x.task).1.skipTask o ob.task).1, modI_self (modI_self hI _) _, ?_⟩, ?_⟩
  · refine ⟨hk.defn.trans h2.defn, hk.tasks.trans h2.tasks, hk.force.trans h2.force, fun p ob hp => ?_, fun k h => ?_⟩
    · obtain ⟨ob1, a1, a2⟩ := h2.objs p ob hp
      obtain ⟨ob2, b1, b2⟩ := hk.objs p ob1 a1
      exact ⟨ob2, b1, b2.trans a2⟩
    · rw [hk.links k h, h2.links k (fun _ h => nomatch h)]
  · unfold Inst.skipTask
    dsimp only
    rw [h2.defn]

end Flow.Ends
