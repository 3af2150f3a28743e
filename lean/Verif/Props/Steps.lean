import Verif.Proofs.Steps
import Verif.Props.Links
import Verif.Spec.Plain

/-
What one step of the engine does to links and successors: a task that is entered becomes ready, is skipped or has to
wait (C01, C02), and a task that succeeds or fails decides its links and hands over to its successors (C03, C04, C05).
-/

namespace Flow
open Spec

variable {env : Env}

/-- The object in the task table for the identifier of `t` belongs to `t`; this can only fail if the main flow and the
error handler have tasks with the same identifier. -/
def Unaliased (I : Inst) (t : TaskRef) : Prop := ∀ o ob, I.tasks.get? t.id = some o → I.objs[o]? = some ob → ob.task = t

theorem complete_self {e : Eng} {i : Nat} {I : Inst} (hI : e.insts[i]? = some I) (hh : ∀ hi ho, I.host = some (hi, ho) → hi ≠ i) :
    (e.complete i).insts[i]? = some (I.setFlowStatus .completed) := by
  unfold Eng.complete
  rw [hI]
  dsimp only
  split
  · exact Eng.modI_self hI _
  · cases hho : I.host with
    | none => exact Eng.modI_self hI _
    | some p =>
      obtain ⟨hi, ho⟩ := p
      have := Eng.modI_ne (e := e.modI i (fun J => J.setFlowStatus .completed)) (hh hi ho hho)
        (fun H => H.modO ho (fun x => { x with outputs := I.returnData, returnError := none }))
      exact this.trans (Eng.modI_self hI _)

theorem finishTask_self {e : Eng} {i : Nat} {I : Inst} (hI : e.insts[i]? = some I) (hh : ∀ hi ho, I.host = some (hi, ho) → hi ≠ i)
    (t : TaskRef) (b : Bool) (es : List TaskEntry) (rest : List Frame) :
    ∃ J, (e.finishTask i t b es rest).insts[i]? = some J ∧ (J = I ∨ J = I.setFlowStatus .completed) ∧
      (e.finishTask i t b es rest).cur = i ∧
      (b = false → I.force = false → (e.finishTask i t b es rest).stack = .enter es :: .release t :: rest) := by
  unfold Eng.finishTask
  rw [hI]
  dsimp only
  split
  · rename_i hc
    exact ⟨_, complete_self hI hh, Or.inr rfl, rfl, fun hb hf => by simp [hb, hf] at hc⟩
  · exact ⟨I, hI, Or.inl rfl, rfl, fun _ _ => rfl⟩

theorem host_ne {e : Eng} (hr : Reachable env e) {i : Nat} {I : Inst} (hI : e.insts[i]? = some I) :
    ∀ hi ho, I.host = some (hi, ho) → hi ≠ i := by
  intro hi ho hho
  have hok := Eng.engOK_reachable hr
  by_cases h0 : i = 0
  · subst h0; rw [hok.host0 I hI] at hho; cases hho
  · obtain ⟨hi', ho', h1, h2, _⟩ := hok.hosts i I hI h0
    rw [h1] at hho; cases hho; omega

/-! ### C02, C01: entering a task -/

/-- C02: when a task is entered, has incoming links, all of them decided and none followed, it is skipped in that step: it
gets the status Skipped, all its outgoing links become skipped, no activity runs, and control continues with the targets of
all its outgoing links. -/
theorem C02_skipped_when {e : Eng} {x : TaskEntry} {xs : List TaskEntry} {rest : List Frame} {I : Inst} (hr : Reachable env e)
    (hstk : e.stack = .enter (x :: xs) :: rest) (hI : e.insts[e.cur]? = some I) (hu : Unaliased I x.task)
    (hne : I.defn.fromLinks x.task ≠ []) (hd : AllDecided I.trace (I.defn.fromLinks x.task))
    (hf : ¬ SomeFollowed I.trace (I.defn.fromLinks x.task)) :
    ∃ J o, (e.step env).insts[e.cur]? = some J ∧ J.defn = I.defn ∧ .taskStatus o x.task .skipped ∈ J.trace ∧
      J.trace.filter isCall = I.trace.filter isCall ∧
      (((I.defn.toLinks x.task).map (·.id)).Nodup → ∀ l ∈ I.defn.toLinks x.task, lastLink J.trace l.id = .skipped) ∧
      (I.defn.toLinks x.task ≠ [] → I.force = false → ∃ es, es.map (·.task) = (I.defn.toLinks x.task).map (fun l => ⟨x.task.eh, l.dst⟩) ∧
        (e.step env).stack = .enter es :: .release x.task :: .enter xs :: rest) := by
  have hok := (Eng.engOK_reachable hr).ok _ _ hI
  obtain ⟨I2, ob, hx2, hc2, hob, hobt, _, ho, hcase⟩ := enterTask_full hok x.task hu
  rcases hcase with ⟨_, _, h, _⟩ | ⟨hskip, _, _, _, hent⟩ | ⟨_, h, _⟩
  · rcases h with h | h
    · exact absurd h hne
    · exact absurd h hf
  · let o := (I.findOrCreateTask x.task).2
    let I3 := I2.setTaskStatus o .skipped
    have hob3 : ∃ ob3, I3.objs[o]? = some ob3 ∧ ob3.task = x.task := ⟨_, (getElem?_setTaskStatus (st := .skipped) hob).2, hobt⟩
    obtain ⟨ob3, hob3, hobt3⟩ := hob3
    have hc3 : Calm I I3 := hc2.trans (Calm.setTaskStatus _ _ _)
    let I4 := (I3.skipTask o x.task).1
    have hc4 : Calm I I4 := hc3.trans (Calm.skipTask _ _ _)
    have hself : (e.modI e.cur (fun _ => (I.enterTask x.task).1)).insts[e.cur]? = some I3 := by
      rw [Eng.modI_self hI, hent]
    have hstep : e.step env = ((e.modI e.cur (fun _ => (I.enterTask x.task).1)).modI e.cur (fun _ => I4)).finishTask e.cur x.task
        ((I3.defn.toLinks x.task).length = 0) (I3.skipTask o x.task).2 (.enter xs :: rest) := by
      unfold Eng.step
      rw [hstk]
      dsimp only
      unfold Eng.enterEntry
      rw [hI]
      dsimp only
      rw [hskip, ho]
      dsimp only
      unfold Eng.taskSkipped
      rw [hself]
      dsimp only
      rw [hob3]
      dsimp only
      rw [hobt3]
    have hd3 : I3.defn = I.defn := hc3.defn
    have hd4 : I4.defn = I.defn := hc4.defn
    have hh4 : ∀ hi ho, I4.host = some (hi, ho) → hi ≠ e.cur := by rw [hc4.host]; exact host_ne hr hI
    obtain ⟨J, hJ, hJ2, _, hst⟩ := finishTask_self (e := (e.modI e.cur (fun _ => (I.enterTask x.task).1)).modI e.cur (fun _ => I4))
      (I := I4) (by exact Eng.modI_self hself _) hh4 x.task ((I3.defn.toLinks x.task).length = 0) (I3.skipTask o x.task).2 (.enter xs :: rest)
    rw [← hstep] at hJ hst
    have hcalls : ∀ K : Inst, Calm I K → K.trace.filter isCall = I.trace.filter isCall := fun K hK => hK.calls
    have hmem : .taskStatus o x.task .skipped ∈ I4.trace := by
      have h3 : .taskStatus o x.task .skipped ∈ I3.trace := by
        show _ ∈ (I2.setTaskStatus o .skipped).trace
        rw [(getElem?_setTaskStatus (st := .skipped) hob).1, hobt]; exact List.mem_cons_self ..
      have hcs : CanSkip I3 o ob3.task := by
        obtain ⟨_, _, h3⟩ := enterTask_ext I x.task
        obtain ⟨ob', h4, h5⟩ := h3 hskip
        rw [ho, hent, show (I2.setTaskStatus (I.findOrCreateTask x.task).2 .skipped).objs[(I.findOrCreateTask x.task).2]? = some ob3 from hob3] at h4
        cases h4
        rw [ho, hent] at h5
        exact h5
      have := (Ext.skipTask hob3 hcs).mem h3
      rw [hobt3] at this; exact this
    have hl4 : ((I.defn.toLinks x.task).map (·.id)).Nodup → ∀ l ∈ I.defn.toLinks x.task, I4.linkSt l.id = .skipped := by
      intro hn l hl
      have hr : (l, LinkStatus.skipped, 4) ∈ skipRows (I3.defn.toLinks x.task) := by
        rw [hd3]; exact List.mem_map.2 ⟨l, hl, rfl⟩
      have hnr : ((skipRows (I3.defn.toLinks x.task)).map (fun r => r.1.id)).Nodup := by
        rw [hd3]; unfold skipRows; rw [List.map_map]; exact hn
      exact Inst.applyRows_linkSt ((I3.findLinks (I3.defn.toLinks x.task)).setTaskStatus o .skipped) _ hnr hr
    have hJok := (Eng.engOK_reachable (Eng.reachable_step hr)).ok _ _ hJ
    refine ⟨J, o, hJ, ?_, ?_, ?_, ?_, ?_⟩
    · rcases hJ2 with rfl | rfl <;> exact hd4
    · rcases hJ2 with rfl | rfl
      · exact hmem
      · exact List.mem_cons_of_mem _ hmem
    · rcases hJ2 with rfl | rfl
      · exact hcalls _ hc4
      · exact (List.filter_cons_of_neg (by simp [isCall])).trans (hcalls _ hc4)
    · intro hn l hl
      rw [← hJok.links]
      rcases hJ2 with rfl | rfl
      · exact hl4 hn l hl
      · exact hl4 hn l hl
    · intro hne2 hforce
      refine ⟨(I3.skipTask o x.task).2, ?_, ?_⟩
      · simp only [Inst.skipTask, rowEntries, skipRows, List.map_map, hd3]; rfl
      · refine hst ?_ (by rw [hc4.force]; exact hforce)
        rw [hd3]
        simp [hne2]
  · exact absurd hd h

/-- C01: when a task is entered, all its incoming links are decided and, unless it has none, one is followed, it becomes
ready in that step, and it is scheduled unless its settings cannot be computed. -/
theorem C01_ready_when {e : Eng} {x : TaskEntry} {xs : List TaskEntry} {rest : List Frame} {I : Inst} (hr : Reachable env e)
    (hstk : e.stack = .enter (x :: xs) :: rest) (hI : e.insts[e.cur]? = some I) (hu : Unaliased I x.task)
    (hd : AllDecided I.trace (I.defn.fromLinks x.task))
    (hf : I.defn.fromLinks x.task = [] ∨ SomeFollowed I.trace (I.defn.fromLinks x.task)) :
    ∃ (J : Inst) (o : Nat) (ob : Obj), (e.step env).insts[e.cur]? = some J ∧ J.objs[o]? = some ob ∧ ob.task = x.task ∧ ob.status = .ready ∧
      .taskStatus o x.task .ready ∈ J.trace ∧
      ((∀ e' i' o', env.settingsOk e' i' o' = true) → (e.step env).queue = e.queue ++ [⟨e.wiCounter + 1, e.cur, o⟩] ∧
        (e.step env).stack = .enter xs :: rest) := by
  have hok := (Eng.engOK_reachable hr).ok _ _ hI
  obtain ⟨I2, ob, hx2, hc2, hob, hobt, _, ho, hcase⟩ := enterTask_full hok x.task hu
  rcases hcase with ⟨hev, _, _, hent⟩ | ⟨_, hne, _, hnf, _⟩ | ⟨_, h, _⟩
  · have hself : (e.modI e.cur (fun _ => (I.enterTask x.task).1)).insts[e.cur]? = some (I2.setTaskStatus (I.findOrCreateTask x.task).2 .ready) := by
      rw [Eng.modI_self hI, hent]
    have hg := getElem?_setTaskStatus (st := .ready) hob
    have hstep : (e.step env).insts[e.cur]? = some (I2.setTaskStatus (I.findOrCreateTask x.task).2 .ready) ∧
        ((∀ e' i' o', env.settingsOk e' i' o' = true) → (e.step env).queue = e.queue ++ [⟨e.wiCounter + 1, e.cur, (I.findOrCreateTask x.task).2⟩] ∧
        (e.step env).stack = .enter xs :: rest) := by
      unfold Eng.step
      rw [hstk]
      dsimp only
      unfold Eng.enterEntry
      rw [hI]
      dsimp only
      rw [hev, ho]
      dsimp only
      split
      · exact ⟨hself, fun _ => ⟨rfl, rfl⟩⟩
      · rename_i hn
        exact ⟨hself, fun h => absurd (h _ _ _) hn⟩
    refine ⟨_, (I.findOrCreateTask x.task).2, _, hstep.1, hg.2, hobt, rfl, ?_, hstep.2⟩
    rw [hg.1, hobt]; exact List.mem_cons_self ..
  · rcases hf with h | h
    · exact absurd h hne
    · exact absurd h hnf
  · exact absurd hd h

/-- C01: when a task is entered and some incoming link is not decided, it neither becomes ready nor is it skipped, and
nothing is scheduled. -/
theorem C01_waits_when {e : Eng} {x : TaskEntry} {xs : List TaskEntry} {rest : List Frame} {I : Inst} (hr : Reachable env e)
    (hstk : e.stack = .enter (x :: xs) :: rest) (hI : e.insts[e.cur]? = some I) (hu : Unaliased I x.task)
    (hd : ¬ AllDecided I.trace (I.defn.fromLinks x.task)) :
    ∃ (J : Inst) (o : Nat) (ob : Obj), (e.step env).insts[e.cur]? = some J ∧ J.objs[o]? = some ob ∧ ob.task = x.task ∧ ob.status = .entered ∧
      (e.step env).queue = e.queue ∧ (e.step env).stack = .enter xs :: rest := by
  have hok := (Eng.engOK_reachable hr).ok _ _ hI
  obtain ⟨I2, ob, hx2, hc2, hob, hobt, _, ho, hcase⟩ := enterTask_full hok x.task hu
  rcases hcase with ⟨_, h, _⟩ | ⟨_, _, h, _⟩ | ⟨hnr, _, hst, hent⟩
  · exact absurd h hd
  · exact absurd h hd
  · have hself : (e.modI e.cur (fun _ => (I.enterTask x.task).1)).insts[e.cur]? = some I2 := by
      rw [Eng.modI_self hI, hent]
    have hstep : e.step env = { e.modI e.cur (fun _ => (I.enterTask x.task).1) with stack := .enter xs :: rest } := by
      unfold Eng.step
      rw [hstk]
      dsimp only
      unfold Eng.enterEntry
      rw [hI]
      dsimp only
      rw [hnr]
    rw [hstep]
    exact ⟨I2, _, ob, hself, hob, hobt, hst, rfl, rfl⟩

/-! ### C03, C05: after success -/

/-- C03: a task that succeeds decides each outgoing link, followed exactly as specified, in the same step, provided no link
expression fails. -/
theorem C03_links_decided {e e' : Eng} {i o : Nat} {t : TaskRef} {I : Inst} (hr : Reachable env e) (hI : e.insts[i]? = some I)
    (h : Evaluates env e i o t e' (.res .done)) (hx : ¬ exprFails (I.defn.toLinks t) (env.link e' i))
    (hn : ((I.defn.toLinks t).map (·.id)).Nodup) :
    ∃ J, (e.step env).insts[i]? = some J ∧ J.defn = I.defn ∧ ∀ (k : Nat) (l : LinkDef), (I.defn.toLinks t)[k]? = some l →
      (followedAfterSuccess (I.defn.toLinks t) (env.link e' i) k → lastLink J.trace l.id = .true) ∧
      (¬ followedAfterSuccess (I.defn.toLinks t) (env.link e' i) k → lastLink J.trace l.id = .false) := by
  obtain ⟨⟨name, hstep⟩, hstk, hoth, hin⟩ := Eng.evaluates_step h
  obtain ⟨I', ob, hI', hob, hobt, hd, hh, hst, hho, _, _, _, heh⟩ := hin I hI
  obtain ⟨rows, h1, h2, h3⟩ := C03_links_after_success env.prio (env.link e' i) (I.defn.toLinks t) hx
  let I1 := ((I'.findLinks (I'.defn.toLinks t)).setTaskStatus o .done).applyRows rows
  have hdt : I'.doneTask env.prio (env.link e' i) o t = (I1, .ok (sortEntries (rowEntries t.eh rows))) := by
    unfold Inst.doneTask
    dsimp only
    rw [hd, h1]
    dsimp only
    rw [← hd]
  have hc := Calm.doneTask env.prio (env.link e' i) I' o t
  rw [hdt] at hc
  have hs2 : e.step env = (e'.modI i (fun _ => I1)).finishTask i t ((I'.defn.toLinks t).length = 0) (sortEntries (rowEntries t.eh rows)) [] := by
    rw [hstep]
    simp only [Eng.handleResult, Eng.taskDone, hI', hdt]
  obtain ⟨J, hJ, hJ2, _, _⟩ := finishTask_self (e := e'.modI i (fun _ => I1)) (I := I1) (Eng.modI_self hI' _)
    (by rw [hc.host, hho]; exact host_ne hr hI) t ((I'.defn.toLinks t).length = 0) (sortEntries (rowEntries t.eh rows)) []
  rw [← hs2] at hJ
  have hJok := (Eng.engOK_reachable (Eng.reachable_step hr)).ok _ _ hJ
  have hlk : ∀ (k : Nat) (l : LinkDef) (r : LinkDef × LinkStatus × Nat), (I.defn.toLinks t)[k]? = some l → rows[k]? = some r →
      lastLink J.trace l.id = r.2.1 := by
    intro k l r hl hrk
    have hrl : r.1 = l := by
      have := congrArg (fun x : List LinkDef => x[k]?) h2
      simp only [List.getElem?_map, hrk, hl, Option.map_some, Option.some.injEq] at this
      exact this
    have hnr : (rows.map (fun r => r.1.id)).Nodup := by
      have : rows.map (fun r => r.1.id) = (rows.map (·.1)).map (·.id) := by rw [List.map_map]; rfl
      rw [this, h2]; exact hn
    have h5 := Inst.applyRows_linkSt ((I'.findLinks (I'.defn.toLinks t)).setTaskStatus o .done) rows hnr (List.mem_of_getElem? hrk)
    rw [hrl] at h5
    rw [← hJok.links]
    rcases hJ2 with rfl | rfl <;> exact h5
  refine ⟨J, hJ, by rcases hJ2 with rfl | rfl <;> exact hc.defn.trans hd, ?_⟩
  intro k l hl
  have hk : k < rows.length := by
    have : rows.length = (I.defn.toLinks t).length := by rw [← h2]; simp
    rw [this]; exact (List.getElem?_eq_some_iff.1 hl).1
  have hrk := List.getElem?_eq_getElem hk
  obtain ⟨h6, h7⟩ := h3 k _ hrk
  have h8 := hlk k l _ hl hrk
  exact ⟨fun hf => h8.trans (h6.2 hf), fun hf => h8.trans (h7.2 hf)⟩

/-- C05: after a success control continues with the targets of all outgoing links, ordered by class and, within a class,
by definition position; a link that is not followed has the last class. This holds unless the task has no outgoing link
or its flow was told to return. -/
theorem C05_entered_after_success {e e' : Eng} {i o : Nat} {t : TaskRef} {I I' : Inst} (hr : Reachable env e) (hI : e.insts[i]? = some I)
    (h : Evaluates env e i o t e' (.res .done)) (hx : ¬ exprFails (I.defn.toLinks t) (env.link e' i))
    (hne : I.defn.toLinks t ≠ []) (hI' : e'.insts[i]? = some I') (hforce : I'.force = false) :
    ∃ es σ, (e.step env).cur = i ∧ (e.step env).stack = [.enter es, .release t] ∧
      PriorityOrder (I.defn.toLinks t).length (fun k => match (I.defn.toLinks t)[k]? with
        | some l => linkClass env.prio l.type (@decide (followedAfterSuccess (I.defn.toLinks t) (env.link e' i) k) (Classical.propDecidable _))
        | none => 0) σ ∧
      es.map (·.task) = σ.map (fun k => ⟨t.eh, (((I.defn.toLinks t)[k]?).map (·.dst)).getD ""⟩) := by
  obtain ⟨⟨name, hstep⟩, hstk, hoth, hin⟩ := Eng.evaluates_step h
  obtain ⟨I'', ob, hI'', hob, hobt, hd, hh, hst, hho, _, _, _, heh⟩ := hin I hI
  rw [hI'] at hI''; cases hI''
  obtain ⟨rows, h1, h2, h3⟩ := C03_links_after_success env.prio (env.link e' i) (I.defn.toLinks t) hx
  let I1 := ((I'.findLinks (I'.defn.toLinks t)).setTaskStatus o .done).applyRows rows
  have hdt : I'.doneTask env.prio (env.link e' i) o t = (I1, .ok (sortEntries (rowEntries t.eh rows))) := by
    unfold Inst.doneTask
    dsimp only
    rw [hd, h1]
    dsimp only
    rw [← hd]
  have hc := Calm.doneTask env.prio (env.link e' i) I' o t
  rw [hdt] at hc
  have hs2 : e.step env = (e'.modI i (fun _ => I1)).finishTask i t ((I'.defn.toLinks t).length = 0) (sortEntries (rowEntries t.eh rows)) [] := by
    rw [hstep]
    simp only [Eng.handleResult, Eng.taskDone, hI', hdt]
  obtain ⟨J, hJ, hJ2, hcur, hstk2⟩ := finishTask_self (e := e'.modI i (fun _ => I1)) (I := I1) (Eng.modI_self hI' _)
    (by rw [hc.host, hho]; exact host_ne hr hI) t ((I'.defn.toLinks t).length = 0) (sortEntries (rowEntries t.eh rows)) []
  rw [← hs2] at hcur hstk2
  obtain ⟨σ, ⟨hp, hs⟩, hm⟩ := C05_order_after_success t.eh env.prio (env.link e' i) (I.defn.toLinks t) rows h1
  refine ⟨_, σ, hcur, hstk2 (by rw [hd]; simp [hne]) (by rw [hc.force]; exact hforce), ⟨hp, ?_⟩, hm⟩
  refine hs.imp_of_mem ?_
  intro a b ha hb hab
  have key : ∀ k ∈ σ, (match (I.defn.toLinks t)[k]?, rows[k]? with
        | some l, some r => linkClass env.prio l.type (r.2.1 = .true)
        | _, _ => 0) = (match (I.defn.toLinks t)[k]? with
        | some l => linkClass env.prio l.type (@decide (followedAfterSuccess (I.defn.toLinks t) (env.link e' i) k) (Classical.propDecidable _))
        | none => 0) := by
    intro k hk
    have hk' : k < (I.defn.toLinks t).length := by have := hp.mem_iff.1 hk; simp at this; omega
    have hk2 : k < rows.length := by
      have : rows.length = (I.defn.toLinks t).length := by rw [← h2]; simp
      omega
    have hrk := List.getElem?_eq_getElem hk2
    obtain ⟨h6, h7⟩ := h3 k _ hrk
    rw [List.getElem?_eq_getElem hk', hrk]
    dsimp only
    congr 1
    exact decide_eq_decide.2 h6
  have ka := key a ha
  have kb := key b hb
  dsimp only at hab ⊢
  rw [← ka, ← kb]
  exact hab

/-- C05: after a failure that is handled locally, control continues with the targets of the error links in definition
order, followed by the targets of the other links in definition order. -/
theorem C05_entered_after_failure {e e' : Eng} {i o : Nat} {t : TaskRef} {err : Err} {I : Inst} (hI : e.insts[i]? = some I)
    (h : Evaluates env e i o t e' (.err err)) (hl : hasErrorLink I.defn t) :
    ∃ es σ, (e.step env).cur = i ∧ (e.step env).stack = [.enter es, .release t] ∧
      PriorityOrder (I.defn.toLinks t).length (fun k => match (I.defn.toLinks t)[k]? with
        | some l => linkClass env.prio l.type (l.type = .error)
        | none => 0) σ ∧
      es.map (·.task) = σ.map (fun k => ⟨t.eh, (((I.defn.toLinks t)[k]?).map (·.dst)).getD ""⟩) := by
  obtain ⟨⟨name, hstep⟩, hstk, hoth, hin⟩ := Eng.evaluates_step h
  obtain ⟨I', ob, hI', hob, hobt, hd, hh, hst, _, _, _, _, heh⟩ := hin I hI
  rw [← hd] at hl ⊢
  obtain ⟨rows, hrows, het⟩ := errorTask_some (o := o) hl
  have hstep2 : e.step env = { e'.modI i (fun _ => (I'.errorTask o t).1.setValue ("_E." ++ t.id) (errorObj t.id err)) with
      cur := i, stack := [.enter (sortEntries (rowEntries t.eh rows)), .release t] } := by
    rw [hstep]
    simp only [Eng.handleResult, Eng.taskError, hI', het]
  have her : errorRows (I'.defn.toLinks t) = some rows := by
    rw [hrows]; exact errorRows_some hl
  obtain ⟨σ, hσ, hm⟩ := C05_order_after_failure t.eh env.prio (I'.defn.toLinks t) rows her
  exact ⟨_, σ, by rw [hstep2], by rw [hstep2], hσ, hm⟩

/-! ### A case for each of them

A has an unfollowed expression link to C, a followed one to B and an `otherwise` link to D; B and C both lead to E. -/

def stepFlow : Def :=
  { name := "f"
    main := ⟨[tk "A", tk "B", tk "C", tk "D", tk "E"],
      [⟨0, "A", "C", .expression, "x"⟩, ⟨1, "A", "B", .expression, "y"⟩, ⟨2, "A", "D", .otherwise, ""⟩,
       ⟨3, "B", "E", .dependency, ""⟩, ⟨4, "C", "E", .dependency, ""⟩]⟩ }

def stepEnv : Env := tableEnv (fun _ => {}) (fun l => .ok (l = 1))

def stepRun (n : Nat) : Eng := Eng.run stepEnv (Eng.init stepEnv "1" "u" stepFlow []) n

theorem stepRun_reachable (n : Nat) : Reachable stepEnv (stepRun n) := ⟨"1", "u", stepFlow, [], n, rfl⟩

def stepInst (n : Nat) : Inst := ((stepRun n).insts[0]?).getD { defn := stepFlow, uri := "" }

example : ∃ e' I', Evaluates stepEnv (stepRun 0) 0 0 ⟨false, "A"⟩ e' (.res .done) ∧ e'.insts[0]? = some I' ∧ I'.force = false :=
  ⟨_, _, ⟨⟨⟨1, 0, 0⟩, rfl, rfl, rfl, rfl⟩, rfl⟩, rfl, rfl⟩
example : ((stepFlow.toLinks ⟨false, "A"⟩).map (·.id)).Nodup := by decide
example (e : Eng) : ¬ exprFails (stepFlow.toLinks ⟨false, "A"⟩) (stepEnv.link e 0) := by
  rintro ⟨l, _, _, m, h⟩; exact nomatch h
example : (stepRun 1).stack = [.enter [⟨⟨false, "B"⟩, 1⟩, ⟨⟨false, "C"⟩, 4⟩, ⟨⟨false, "D"⟩, 4⟩], .release ⟨false, "A"⟩] := by rfl

-- B is entered and becomes ready
example : AllDecided (stepInst 1).trace (stepFlow.fromLinks ⟨false, "B"⟩) ∧
    SomeFollowed (stepInst 1).trace (stepFlow.fromLinks ⟨false, "B"⟩) := by
  unfold AllDecided SomeFollowed; decide
-- C is entered and skipped
example : (stepRun 2).stack = [.enter [⟨⟨false, "C"⟩, 4⟩, ⟨⟨false, "D"⟩, 4⟩], .release ⟨false, "A"⟩] := by rfl
example : AllDecided (stepInst 2).trace (stepFlow.fromLinks ⟨false, "C"⟩) ∧
    ¬ SomeFollowed (stepInst 2).trace (stepFlow.fromLinks ⟨false, "C"⟩) ∧ stepFlow.fromLinks ⟨false, "C"⟩ ≠ [] := by
  unfold AllDecided SomeFollowed; decide
-- E is entered because of C and waits for B
example : (stepRun 3).stack = [.enter [⟨⟨false, "E"⟩, 4⟩], .release ⟨false, "C"⟩, .enter [⟨⟨false, "D"⟩, 4⟩], .release ⟨false, "A"⟩] := by rfl
example : ¬ AllDecided (stepInst 3).trace (stepFlow.fromLinks ⟨false, "E"⟩) := by
  unfold AllDecided; decide
-- there is one object per task
example : Unaliased (stepInst 3) ⟨false, "E"⟩ := by
  intro o ob h; exact nomatch h

end Flow
