import Verif.Model.Resume
import Verif.Proofs.Resume
import Verif.Props.Serial
import Verif.Props.Loops
import Verif.Model.Launch
import Verif.Props.Graph
import Verif.Proofs.Rest

/-
C88: a restarted flow continues as the original would have.
-/

namespace Flow

open Spec

theorem foldl_set_append {K V : Type} [DecidableEq K] (l m : AMap K V) (hn : (m ++ l : List (K × V)).map (·.1) |>.Nodup) :
    l.foldl (fun m p => AMap.set m p.1 p.2) m = m ++ l := by
  induction l generalizing m with
  | nil => simp
  | cons p l ih =>
    have hs : AMap.set m p.1 p.2 = m ++ [p] := by
      have hp : p.1 ∉ AMap.keys m := by
        intro hc
        rw [List.map_append, List.nodup_append] at hn
        exact hn.2.2 _ hc _ (by simp) rfl
      clear ih hn
      induction m with
      | nil => rfl
      | cons q m ih =>
        obtain ⟨a, b⟩ := q
        have hq : a ≠ p.1 := fun hc => hp (by simp [AMap.keys, hc])
        have hm : p.1 ∉ AMap.keys m := fun hc => hp (List.mem_cons_of_mem _ hc)
        show (if a = p.1 then _ else _) = _
        rw [if_neg hq, ih hm]; rfl
    rw [List.foldl_cons, hs, ih]
    · simp
    · simpa using hn

theorem foldl_set_self {K V : Type} [DecidableEq K] (l : AMap K V) (hn : l.keys.Nodup) : l.foldl (fun m p => AMap.set m p.1 p.2) [] = l :=
  foldl_set_append l [] hn

/-- Where the task object at position `b` of the table was in the original run. -/
def origin (I : Inst) (b : Nat) : Nat := ((I.tasks[b]?).map (·.2)).getD 0

theorem get?_zip (l : AMap TaskId TaskStatus) (hn : l.keys.Nodup) (t : TaskId) (b : Nat) :
    AMap.get? (l.zipIdx.map (fun x => (x.1.1, x.2)) : AMap TaskId Nat) t = some b ↔ ∃ s, l[b]? = some (t, s) := by
  have hk : AMap.keys (l.zipIdx.map (fun x => (x.1.1, x.2)) : AMap TaskId Nat) = l.keys := by
    unfold AMap.keys
    apply List.ext_getElem?
    intro p
    simp only [List.getElem?_map, List.getElem?_zipIdx]
    cases l[p]? <;> rfl
  constructor
  · intro h
    have h1 := AMap.mem_of_get? h
    obtain ⟨p, hp⟩ := List.mem_iff_getElem?.1 h1
    rw [List.getElem?_map, List.getElem?_zipIdx] at hp
    cases hl : l[p]? with
    | none => rw [hl] at hp; cases hp
    | some x =>
      rw [hl] at hp
      have hp := Prod.mk.inj (Option.some.inj hp)
      simp only [Nat.zero_add] at hp
      refine ⟨x.2, ?_⟩
      rw [← hp.2, hl, ← hp.1]
  · intro ⟨s, hs⟩
    apply AMap.get?_of_mem_nodup
    · rw [hk]; exact hn
    · apply List.mem_iff_getElem?.2
      refine ⟨b, ?_⟩
      rw [List.getElem?_map, List.getElem?_zipIdx, hs]
      simp

theorem resumeQueue_all (tasks : AMap TaskId Nat) (ws : List RItem) (h : ∀ w ∈ ws, ∃ x, w.resume tasks = some x) :
    ∃ q, resumeQueue tasks ws = some q ∧ q.length = ws.length ∧ ∀ (p : Nat) w x, ws[p]? = some w → q[p]? = some x → w.resume tasks = some x := by
  induction ws with
  | nil => exact ⟨[], rfl, rfl, fun _ _ _ h => nomatch h⟩
  | cons w ws ih =>
    obtain ⟨q, h1, h2, h3⟩ := ih fun v hv => h v (List.mem_cons_of_mem _ hv)
    obtain ⟨x, hx⟩ := h w List.mem_cons_self
    refine ⟨x :: q, by unfold resumeQueue; rw [hx, h1], by simp [h2], fun p v y hv hy => ?_⟩
    cases p with
    | zero => cases hv; cases hy; exact hx
    | succ p => exact h3 p v y hv hy

theorem restoreQueue_top (top : RInst) (ws : List SnapItem) (h : ∀ w ∈ ws, w.subflowId = 0) :
    restoreQueue top [] ws = some (ws.map (fun w => ⟨w.id, w.subflowId, w.taskId, (top.tasks.get? w.taskId).map (fun _ => (0, w.taskId))⟩)) := by
  induction ws with
  | nil => rfl
  | cons w ws ih =>
    unfold restoreQueue
    rw [ih fun v hv => h v (List.mem_cons_of_mem _ hv)]
    unfold SnapItem.restore
    rw [if_neg (by rw [h w List.mem_cons_self]; omega)]
    rfl

theorem same_of_sim {B : Base} {N : Nat} {r : Nat → Nat} {I J : Inst} (h : SimI B N r I J) : SameFlow I J := by
  refine ⟨h.status, h.attrs, h.links, h.returnData, h.returnError, ?_⟩
  rw [h.tasks, List.map_map]
  refine List.map_congr_left fun p hp => ?_
  show (p.1, (I.objs[r p.2]?).map _) = (p.1, _)
  rw [h.objs _ (h.bound p hp)]

theorem continues_of_sim {r0 : List (AMap String Val × Option Err)} {I0 : Inst} {N : Nat} {r : Nat → Nat} {e f : Eng}
    (h : SimE ⟨(I0.trace.map Ev.name, [.flowStatus .active]), (I0.posted.map Post.name, [.flow .active none]), (r0, [])⟩ N r e f) :
    Continues r0 I0 e f := by
  refine ⟨?_, ?_, h.replies⟩
  · obtain ⟨I, J, h1, h2, h3⟩ := h.insts
    exact ⟨I, J, h1, h2, same_of_sim h3, h3.trace, h3.posted⟩
  · have h1 : e.queue.map (fun w => taskOf e w.inst w.obj) = (e.queue.map (fun w => (w.inst, w.obj))).map (fun p => taskOf e p.1 p.2) := by
      rw [List.map_map]; rfl
    rw [h1, h.queue, List.map_map]
    refine List.map_congr_left fun w hw => ?_
    obtain ⟨h2, h3⟩ := h.items w hw
    show taskOf e w.inst (r w.obj) = taskOf f w.inst w.obj
    unfold taskOf
    rw [h2, h.objEq h3]

/-- C88, part: a flow instance that is saved while nothing is in progress can be restored and restarted, and the restarted instance
continues as the original would have: after any number of steps the status of the flow, its attributes, links, results, its tasks and
their statuses and the pending tasks are the same, and so are the events, the news to listeners and the replies since then. The
activities may use all data of the flow and of their task, but no state of their own. What is missing: work that is in progress does
not survive a restart (`C88_negation_loop`, `C88_negation_result`, `C88_negation_handler`). -/
theorem C88_continues_partial {env : Env} (E : DataOnly env) {e : Eng} (hr : Reachable env e) {I : Inst} (h : AtRest e I)
    {defs : String → Except Err (Option Def)} (hd : defs I.uri = .ok (some I.defn)) (id : String) {k : Int} (hk : k ≤ -1) :
    ∃ s r r' f, e.marshal = some s ∧ s.unmarshal = some r ∧ r.restart defs true id k = .ok r' ∧ r'.resume I.defn = some f ∧ f.id = id ∧
      ∀ n, Continues e.replies I (Eng.run env e n) (Eng.run env f n) := by
  have ok := Eng.engOK_reachable hr
  have hI : e.insts[0]? = some I := by rw [h.one]; rfl
  have iok := ok.ok 0 I hI
  have hnt := iok.mirror.nodup.1
  have hsub : ∀ k, e.subflows.get? k = none := by
    intro k
    cases hg : e.subflows.get? k with
    | none => rfl
    | some j =>
      have := ok.sub k j hg
      rw [h.one] at this
      simp at this
      omega
  -- the document
  let st : Nat → TaskStatus := fun o => ((I.objs[o]?).map (·.status)).getD .notStarted
  let T : AMap TaskId TaskStatus := I.tasks.map (fun p => (p.1, st p.2))
  have hTn : AMap.keys T = I.tasks.keys := AMap.keys_mapVal I.tasks st
  have hnT : (AMap.keys T).Nodup := by rw [hTn]; exact hnt
  have hm : e.marshal = some ⟨e.id, I.marshal, e.queue.map e.itemOf, []⟩ := by
    unfold Eng.marshal
    rw [hI]
    have : (List.range e.insts.length).filterMap (fun k => ((e.subflows.get? k).bind (fun j => e.insts[j]?)).map Inst.marshal) = [] := by
      rw [List.filterMap_eq_nil_iff]
      intro k _
      rw [hsub k]; rfl
    dsimp only
    rw [this]
  let R : RInst := { status := I.status, uri := I.uri, attrs := I.attrs, tasks := T, links := I.links }
  have hR : I.marshal.restore = R := by
    show RInst.mk _ _ _ _ _ = _
    have h1 : I.marshal.tasks.foldl (fun m p => AMap.set m p.1 p.2) [] = T := foldl_set_self T hnT
    have h2 : I.marshal.links.foldl (fun m p => AMap.set m p.1 p.2) [] = I.links := foldl_set_self I.links iok.mirror.nodup.2
    rw [h1, h2]; rfl
  let Q : List RItem := (e.queue.map e.itemOf).map (fun w => ⟨w.id, w.subflowId, w.taskId, (T.get? w.taskId).map (fun _ => (0, w.taskId))⟩)
  have hs0 : I.subflowId = 0 := ok.sid 0 I hI
  have hq : restoreQueue R [] (e.queue.map e.itemOf) = some Q := by
    apply restoreQueue_top
    intro w hw
    obtain ⟨v, hv, rfl⟩ := List.mem_map.1 hw
    show ((e.insts[v.inst]?).map (·.subflowId)).getD 0 = 0
    rw [(h.items v hv).1, hI]
    exact hs0
  have hu : Ser.unmarshal ⟨e.id, I.marshal, e.queue.map e.itemOf, []⟩ = some { id := e.id, top := R, queue := Q } := by
    unfold Ser.unmarshal
    dsimp only
    rw [hR]
    show (match restoreQueue R [] (e.queue.map e.itemOf) with | none => none | some q => some _) = _
    rw [hq]; rfl
  -- the restart
  have hres : resolvable I.defn T = true := by
    unfold resolvable
    rw [List.all_eq_true]
    intro p hp
    obtain ⟨q, hq, rfl⟩ := List.mem_map.1 hp
    have := h.known q.1 q.2 (AMap.get?_of_mem_nodup hnt hq)
    simp [this]
  let R1 : RInst := { R with status := .active }
  have hre : Restored.restart defs true id k { id := e.id, top := R, queue := Q } = .ok { id := id, top := R1, queue := Q } := by
    unfold Restored.restart
    dsimp only
    rw [hd]
    dsimp only
    rw [if_pos rfl, if_pos hres, if_neg (by omega)]
  -- the new state
  have hob : ∀ (b : Nat) t o, I.tasks[b]? = some (t, o) → I.tasks.get? t = some o := fun b t o hb =>
    AMap.get?_of_mem_nodup hnt (List.mem_of_getElem? hb)
  have hTb : ∀ (b : Nat), T[b]? = (I.tasks[b]?).map (fun p => (p.1, st p.2)) := fun b => List.getElem?_map
  let J : Inst := R1.resume I.defn
  have hJt : ∀ t b, J.tasks.get? t = some b ↔ ∃ s, T[b]? = some (t, s) := get?_zip T hnT
  have hitem : ∀ w ∈ e.queue, ∃ t b, (e.itemOf w) = ⟨w.id, 0, t⟩ ∧ I.tasks[b]? = some (t, w.obj) ∧ J.tasks.get? t = some b ∧ (T.get? t).isSome := by
    intro w hw
    obtain ⟨h1, t, h2⟩ := h.items w hw
    obtain ⟨s, h3⟩ := h.fresh t w.obj h2
    obtain ⟨b, hb⟩ := List.mem_iff_getElem?.1 (AMap.mem_of_get? h2)
    have hT : T[b]? = some (t, st w.obj) := by rw [hTb, hb]; rfl
    refine ⟨t, b, ?_, hb, (hJt t b).2 ⟨_, hT⟩, ?_⟩
    · have h4 : e.obj? 0 w.obj = some { task := ⟨false, t⟩, status := s } := by unfold Eng.obj?; rw [hI]; exact h3
      unfold Eng.itemOf
      rw [h1, hI, h4]
      show SnapItem.mk _ I.subflowId t = _
      rw [hs0]
    · rw [AMap.get?_mapVal I.tasks st t, h2]; rfl
  obtain ⟨q, hq1, hq2, hq3⟩ := resumeQueue_all J.tasks Q (by
    intro x hx
    obtain ⟨v, hv, rfl⟩ := List.mem_map.1 hx
    obtain ⟨w, hw, rfl⟩ := List.mem_map.1 hv
    obtain ⟨t, b, h1, _, h2, h3⟩ := hitem w hw
    obtain ⟨s, hs⟩ := Option.isSome_iff_exists.1 h3
    rw [h1]
    refine ⟨⟨w.id, 0, b⟩, ?_⟩
    show RItem.resume J.tasks ⟨w.id, 0, t, (T.get? t).map (fun _ => (0, t))⟩ = _
    rw [hs]
    show (J.tasks.get? t).map _ = _
    rw [h2]; rfl)
  let f : Eng := { id := id, insts := [J], queue := q }
  have hf : Restored.resume I.defn { id := id, top := R1, queue := Q } = some f := by
    show (resumeQueue J.tasks Q).map _ = _
    rw [hq1]; rfl
  refine ⟨_, _, _, f, hm, hu, hre, hf, rfl, ?_⟩
  -- the correspondence
  have hlen : q.length = e.queue.length := by rw [hq2]; simp [Q]
  have hqi : ∀ (p : Nat) w x, e.queue[p]? = some w → q[p]? = some x → ∃ b t, x = ⟨w.id, 0, b⟩ ∧ I.tasks[b]? = some (t, w.obj) := by
    intro p w x hw hx
    obtain ⟨t, b, h1, h2, h3, h4⟩ := hitem w (List.mem_of_getElem? hw)
    obtain ⟨s, hs⟩ := Option.isSome_iff_exists.1 h4
    have h5 := hq3 p ⟨w.id, 0, t, some (0, t)⟩ x (by
      show ((e.queue.map e.itemOf).map _)[p]? = _
      rw [List.getElem?_map, List.getElem?_map, hw]
      show some _ = some _
      rw [h1]
      show some (RItem.mk w.id 0 t ((T.get? t).map (fun _ => (0, t)))) = _
      rw [hs]; rfl) hx
    have h5 : (J.tasks.get? t).map (fun o => (⟨w.id, 0, o⟩ : WorkItem)) = some x := h5
    rw [h3] at h5
    exact ⟨b, t, (Option.some.inj h5).symm, h2⟩
  have hobjs : J.objs = T.map (fun p => { task := taskRefOf I.defn p.1, status := p.2 }) := rfl
  have hor : ∀ (b : Nat) t o, I.tasks[b]? = some (t, o) → origin I b = o := by
    intro b t o hb
    unfold origin; rw [hb]; rfl
  have sim : SimI ⟨(I.trace.map Ev.name, [.flowStatus .active]), (I.posted.map Post.name, [.flow .active none]), (e.replies, [])⟩
      I.tasks.length (origin I) I J := by
    refine { len := ?_, plain := h.plain, defn := rfl, handling := h.handling, status := h.active, force := h.force,
             returnData := h.returnData, returnError := h.returnError, attrs := rfl, links := rfl, inj := ?_, objs := ?_, tasks := ?_,
             bound := ?_, trace := ⟨[], rfl, rfl⟩, posted := ⟨[], rfl, rfl⟩ }
    · rw [hobjs]; simp [T]
    · intro a b ha hb hab
      have h1 := List.getElem?_eq_getElem ha
      have h2 := List.getElem?_eq_getElem hb
      have h3 := hor a _ _ h1
      have h4 := hor b _ _ h2
      obtain ⟨s, h5⟩ := h.fresh _ _ (hob a _ _ h1)
      obtain ⟨s', h6⟩ := h.fresh _ _ (hob b _ _ h2)
      rw [← h3] at h5
      rw [← h4, ← hab, h5] at h6
      have h7 : I.tasks[a].1 = I.tasks[b].1 := congrArg (fun x : Obj => x.task.id) (Option.some.inj h6)
      have h8 : (I.tasks.keys)[a]? = (I.tasks.keys)[b]? := by
        unfold AMap.keys
        rw [List.getElem?_map, List.getElem?_map, h1, h2]
        exact congrArg some h7
      exact (List.getElem?_inj (by unfold AMap.keys; rw [List.length_map]; exact ha) hnt).1 h8
    · intro b hb
      have h1 := List.getElem?_eq_getElem hb
      obtain ⟨s, h5⟩ := h.fresh _ _ (hob b _ _ h1)
      have h5 : I.objs[I.tasks[b].2]? = some { task := ⟨false, I.tasks[b].1⟩, status := s } := h5
      have h0 : origin I b = I.tasks[b].2 := hor b _ _ h1
      rw [h0, hobjs, List.getElem?_map, hTb, h1, h5]
      show some _ = some (Obj.mk (taskRefOf I.defn I.tasks[b].1) (st I.tasks[b].2) _ _ _ _ _ _ _)
      have h6 : taskRefOf I.defn I.tasks[b].1 = ⟨false, I.tasks[b].1⟩ := by
        exact if_pos (h.known _ _ (hob b _ _ h1))
      have h7 : st I.tasks[b].2 = s := by
        show ((I.objs[I.tasks[b].2]?).map (·.status)).getD .notStarted = s
        rw [h5]; rfl
      rw [h6, h7]
    · have hJ : J.tasks = T.zipIdx.map (fun x => (x.1.1, x.2)) := rfl
      rw [hJ, List.map_map]
      apply List.ext_getElem?
      intro p
      rw [List.getElem?_map, List.getElem?_zipIdx, hTb]
      cases hp : I.tasks[p]? with
      | none => rfl
      | some x =>
        show some x = some (x.1, origin I (0 + p))
        rw [Nat.zero_add, hor p x.1 x.2 hp]
    · intro p hp
      have hJ : J.tasks = T.zipIdx.map (fun x => (x.1.1, x.2)) := rfl
      rw [hJ] at hp
      obtain ⟨x, hx, rfl⟩ := List.mem_map.1 hp
      have := (List.mem_zipIdx hx).2.1
      simp [T] at this
      exact this
  have hE : SimE ⟨(I.trace.map Ev.name, [.flowStatus .active]), (I.posted.map Post.name, [.flow .active none]), (e.replies, [])⟩
      I.tasks.length (origin I) e f := by
    refine { insts := ⟨I, J, h.one, rfl, sim⟩, queue := ?_, items := ?_, stack := h.stack, cur := fun hc => absurd rfl hc, replies := ⟨[], rfl, rfl⟩ }
    · show e.queue.map _ = q.map _
      apply List.ext_getElem?
      intro p
      rw [List.getElem?_map, List.getElem?_map]
      cases hw : e.queue[p]? with
      | none =>
        have : q[p]? = none := by rw [List.getElem?_eq_none_iff] at hw ⊢; omega
        rw [this]; rfl
      | some w =>
        obtain ⟨x, hx⟩ : ∃ x, q[p]? = some x := by
          obtain ⟨h3, _⟩ := List.getElem?_eq_some_iff.1 hw
          exact ⟨_, List.getElem?_eq_getElem (by omega)⟩
        obtain ⟨b, t, h1, h2⟩ := hqi p w x hw hx
        rw [hx, h1]
        show some (w.inst, w.obj) = some (0, origin I b)
        rw [hor b t _ h2, (h.items w (List.mem_of_getElem? hw)).1]
    · intro x hx
      obtain ⟨p, hp⟩ := List.mem_iff_getElem?.1 hx
      have hp : q[p]? = some x := hp
      obtain ⟨w, hw⟩ : ∃ w, e.queue[p]? = some w := by
        obtain ⟨h3, _⟩ := List.getElem?_eq_some_iff.1 hp
        exact ⟨_, List.getElem?_eq_getElem (by omega)⟩
      obtain ⟨b, t, h1, h2⟩ := hqi p w x hw hp
      rw [h1]
      exact ⟨rfl, (List.getElem?_eq_some_iff.1 h2).1⟩
  intro n
  obtain ⟨N', r', h1⟩ := hE.run E n
  exact continues_of_sim h1

/-- C88: when control has left an acyclic flow of plain tasks without subflows, with no error unhandled, no task waiting for an
asynchronous activity and no result yet, then it is at rest: whatever happened before, such a flow can be restarted. -/
theorem C88_at_rest_partial {env : Env} (hset : SettingsOk env) {e : Eng} (hr : Reachable env e) {I : Inst} (hI : e.insts[0]? = some I)
    (hc : Covered I.defn.main) (hn : NoSubflows I.defn) (hb : ∀ t ∈ I.defn.main.tasks, t.kind = .basic) (hu : Undisturbed I) (hs : e.stack = [])
    (ha : I.status = .active) (hw : ∀ t, ¬ HasStatus I t .waiting) (hd : I.returnData = none) (he : I.returnError = none) : AtRest e I := by
  have hlf : Leaf I.defn.main := by
    intro td htd uri hx
    have hf : (I.defn.task? ⟨false, td.id⟩).isSome := by
      unfold Def.task? Def.graph
      dsimp only
      rw [List.find?_isSome]
      exact ⟨td, htd, by simp⟩
    obtain ⟨x, hx1⟩ := Option.isSome_iff_exists.1 hf
    have h1 := hx1
    unfold Def.task? Def.graph at h1
    dsimp only at h1
    have h2 := List.mem_of_find?_eq_some h1
    have h3 := List.find?_some h1
    simp at h3
    have : x = td := GraphM.tasks_inj hc.wf h2 htd h3
    subst this
    exact hn _ _ hx1 uri hx
  obtain ⟨h1, _⟩ := GraphM.only_one hset hr hI hc hlf hu
  obtain ⟨G, hG, hfr⟩ := covered_loc hset hr hI hc hu (Or.inl hlf)
  have hneat : GraphM.Neat e I := by
    obtain ⟨id, uri, d, ins, n, rfl⟩ := hr
    have hdf := root_defn hI
    rw [hdf] at hc hlf hb
    exact GraphM.Neat.run hset id uri d hc hlf hb ins n I hI hu
  have ok := Eng.engOK_reachable hr
  have htab : ∀ t o, I.tasks.get? t = some o → G.obj t = some o := by
    intro t o ht
    cases hrl : G.rel t with
    | true => rw [(hG.sim.tab t).1 hrl] at ht; cases ht
    | false => rw [← (hG.sim.tab t).2 hrl]; exact ht
  refine ⟨?_, hn, hs, ha, hu.1, hu.2, hd, he, ?_, ?_, ?_⟩
  · cases hx : e.insts with
    | nil => rw [hx] at hI; cases hI
    | cons a as =>
      rw [hx] at hI h1
      cases as with
      | nil => cases hI; rfl
      | cons b bs => simp at h1
  · intro t o ht
    have := htab t o ht
    obtain ⟨td, h2, h3⟩ := hG.inv.dom t (fun hx => by rw [(hG.inv.objs t).2 hx] at this; cases this)
    unfold Def.task? Def.graph
    dsimp only
    rw [List.find?_isSome]
    exact ⟨td, h2, by simp [h3]⟩
  · intro t o ht
    obtain ⟨ob, h2, h3, h4⟩ := hG.sim.obj t o (htab t o ht)
    have h5 : ¬ GraphM.Fin ob.status := fun hf => by
      have := hneat.left t o ob ht h2 hf
      unfold GraphM.ToRelease at this
      rw [hs] at this; cases this
    have h6 : ob.status ≠ .waiting := fun hx => hw t ⟨ob, List.mem_of_getElem? h2, h3, hx⟩
    have h7 := hneat.blank o ob h2 (by
      revert h5 h6
      cases ob.status <;> simp [GraphM.Fin, GraphM.Open, TaskStatus.code])
    exact ⟨ob.status, by rw [h2, ← h3]; exact congrArg some h7⟩
  · intro w hw'
    have hlt := GraphM.Readied.lt (ok.queue w hw')
    have hw0 : w.inst = 0 := by omega
    refine ⟨hw0, ?_⟩
    have h2 : GraphM.cntOf e 0 w.obj ≠ 0 := by
      unfold GraphM.cntOf
      rw [Ne, List.countP_eq_zero]
      exact fun hx => hx w hw' (decide_eq_true ⟨hw0, rfl⟩)
    have h3 : GraphM.loadOf e 0 w.obj ≠ 0 := fun hc => h2 (GraphM.load_zero.1 hc).1
    obtain ⟨t, ht⟩ := hG.cnt2 _ h3
    rw [hG.cnt1 t _ ht] at h3
    have h4 : ¬ GraphM.Fin (G.st t) := fun hf => h3 (by
      refine (hG.inv.pend t).2.2 ?_ ?_ <;> intro hx <;> rw [hx] at hf <;> simp [GraphM.Fin, TaskStatus.code] at hf)
    have h5 : G.rel t = false := by
      cases hrl : G.rel t with
      | false => rfl
      | true => exact absurd (hG.inv.relFin t hrl) h4
    exact ⟨t, by rw [(hG.sim.tab t).2 h5]; exact ht⟩

/-- C88 for flows of plain tasks: whatever was executed, failed over error links or was skipped before, and whatever is pending, the
saved flow continues after a restart as it would have without. -/
theorem C88_plain_partial {env : Env} (E : DataOnly env) (hset : SettingsOk env) {e : Eng} (hr : Reachable env e) {I : Inst} (hI : e.insts[0]? = some I)
    (hc : Covered I.defn.main) (hn : NoSubflows I.defn) (hb : ∀ t ∈ I.defn.main.tasks, t.kind = .basic) (hu : Undisturbed I) (hs : e.stack = [])
    (ha : I.status = .active) (hw : ∀ t, ¬ HasStatus I t .waiting) (hd : I.returnData = none) (he : I.returnError = none)
    {defs : String → Except Err (Option Def)} (hdf : defs I.uri = .ok (some I.defn)) (id : String) {k : Int} (hk : k ≤ -1) :
    ∃ s r r' f, e.marshal = some s ∧ s.unmarshal = some r ∧ r.restart defs true id k = .ok r' ∧ r'.resume I.defn = some f ∧ f.id = id ∧
      ∀ n, Continues e.replies I (Eng.run env e n) (Eng.run env f n) :=
  C88_continues_partial E hr (C88_at_rest_partial hset hr hI hc hn hb hu hs ha hw hd he) hdf id hk

/-- C88 for a restart requested from the tester, without data: the flow that is executed continues as the original would have. -/
theorem C88_tester_partial {env : Env} (E : DataOnly env) {e : Eng} (hr : Reachable env e) {I : Inst} (h : AtRest e I) {w : Launch.World} {res : Bool}
    (hw : w.find I.uri = .ok (some I.defn, res)) (hu : I.uri ≠ "") (hm : w.modelOk I.defn = true) (he : w.event = "") :
    ∃ s r l f, e.marshal = some s ∧ s.unmarshal = some r ∧ w.testRestart env r [] = .restarted l ∧ l.inst.resume I.defn = some f ∧ f.id = w.nextId ∧
      ∀ n, Continues e.replies I (Eng.run env e n) (Eng.run env f n) := by
  obtain ⟨s, r, r', f, h1, h2, h3, h4, h5, h6⟩ := C88_continues_partial E hr h
    (defs := fun u => (w.find u).map (·.1)) (by rw [hw]; rfl) w.nextId (k := -1) (by omega)
  have hri : r.top.uri = I.uri := (C31_restored_partial hr (by rw [h.one]; rfl) h1 h2).2.1.2.1
  refine ⟨s, r, w.launched { op := 2, returnId := true, uri := I.uri, state := some (.restored r) } w.nextId [] r', f, h1, h2, ?_, h4, h5, h6⟩
  · unfold Launch.World.testRestart Launch.World.newAction
    rw [hri, hw]
    dsimp only
    unfold Launch.World.run
    have ho : Launch.optionsOf (Launch.request [] { op := 2, returnId := true, uri := I.uri, state := some (.restored r) }) =
        { op := 2, returnId := true, uri := I.uri, state := some (.restored r) } := rfl
    have hv : Launch.values (Launch.request [] { op := 2, returnId := true, uri := I.uri, state := some (.restored r) }) = [] := rfl
    dsimp only
    rw [ho, hv]
    have hx : Launch.uriOf ⟨I.uri, if res = true then some I.defn else none⟩ { op := 2, returnId := true, uri := I.uri, state := some (.restored r) } = I.uri := by
      unfold Launch.uriOf
      exact if_neg hu
    rw [hx, if_neg hu, if_neg (show (2 : Int) ≠ 0 by decide), if_neg (show (2 : Int) ≠ 1 by decide), if_pos rfl]
    unfold Launch.World.restart
    dsimp only
    have hmo : (((w.find r.top.uri).toOption.bind (·.1)).elim false w.modelOk) = true := by rw [hri, hw]; exact hm
    rw [hmo]
    have hid : w.idOf { op := 2, returnId := true, uri := I.uri, state := some (.restored r) } = w.nextId := rfl
    rw [hid]
    show (match r.restart (fun u => (w.find u).map (·.1)) true w.nextId (-1) with | .error => _ | .panic => _ | .ok r1 => _) = _
    rw [h3]
    dsimp only
    have hev : w.addEvent r'.top.attrs = r'.top.attrs := by unfold Launch.World.addEvent; rw [if_pos he]
    rw [hev]
    rfl

/-! ### Cases -/

/-- The environments given by tables look at the task only. -/
theorem dataOnly_table (act : TaskId → ActOut) (link : LinkId → ExprOut) : DataOnly (tableEnv act link) := by
  refine ⟨fun _ _ _ => rfl, fun e f o p h => ?_, fun _ _ _ _ _ => rfl, fun _ _ _ _ => rfl, fun _ _ _ _ _ => rfl, fun _ _ _ _ _ => rfl,
    fun _ _ _ _ _ => rfl, fun _ _ _ _ _ => rfl, fun _ _ _ _ _ => rfl, fun _ _ _ _ _ => rfl, fun _ _ _ _ _ => rfl, fun _ _ _ _ _ => rfl⟩
  obtain ⟨I, J, ob, h1, h2, _, _, h3, h4⟩ := h
  show act (taskOf e 0 o) = act (taskOf f 0 p)
  unfold taskOf Eng.obj?
  rw [h1, h2]
  dsimp only
  rw [h3, h4]

/-- The restarted instance, as the requests of the tester start it. -/
def resumed (d : Def) (e : Eng) : Option Eng :=
  (e.marshal.bind Ser.unmarshal).bind (fun r =>
    match r.restart (lookup d) true "2" (-1) with
    | .ok r' => r'.resume d
    | _ => none)

/-- A leads to B and C, these lead to D. -/
def saved : Def := { name := "f", main := ⟨[tk "A", tk "B", tk "C", tk "D"], deps 0 [("A", "B"), ("A", "C"), ("B", "D"), ("C", "D")]⟩ }
/-- After B has completed; D waits for C. -/
def savedRun : Eng := Eng.run plainEnv (Eng.init plainEnv "1" "u" saved []) 9

/-- A returns data to the caller and waits; B is pending. -/
def returnsFirst : Def := { name := "f", main := ⟨[{ tk "A" with act := .async }, tk "B"], []⟩ }
/-- A as above. -/
def returnsFirstEnv : Env :=
  tableEnv (fun t => if t = "A" then { ret := some (some [("x", .int 1)], none), res := .wait } else {}) (fun _ => .ok true)
/-- After A. -/
def returnedFirst (n : Nat) : Eng := Eng.run returnsFirstEnv (Eng.init returnsFirstEnv "1" "u" returnsFirst []) n

/-- A fails; the handler executes G and then H, which fails. -/
def handles : Def := { name := "f", main := ⟨[tk "A"], []⟩, eh := some ⟨[tk "G", tk "H"], deps 0 [("G", "H")]⟩ }
/-- A and H fail. -/
def handlesEnv : Env := tableEnv (fun t => if t = "G" then {} else { res := .err (.plain "boom") }) (fun _ => .ok true)
/-- The run. -/
def handlesRun (n : Nat) : Eng := Eng.run handlesEnv (Eng.init handlesEnv "1" "u" handles []) n

/-- A flow whose tasks are `tk …` calls no other flows. -/
theorem saved_noSubflows : NoSubflows saved := by
  intro t td h uri
  have h2 := List.mem_of_find?_eq_some h
  cases ht : t.eh with
  | true => rw [ht] at h2; cases h2
  | false =>
    rw [ht] at h2
    have h2 : td ∈ [tk "A", tk "B", tk "C", tk "D"] := h2
    simp at h2
    rcases h2 with rfl | rfl | rfl | rfl <;> exact fun hc => nomatch hc

-- the hypotheses of `C88_continues_partial` are met: C is pending, D waits for it
theorem savedRun_atRest : ∃ I, AtRest savedRun I ∧ I.uri = "u" ∧ I.defn = saved ∧ I.tasks = [("C", 2), ("D", 3)] ∧ savedRun.queue = [⟨3, 0, 2⟩] := by
  refine ⟨savedRun.insts[0]'(by decide), ⟨rfl, saved_noSubflows, rfl, rfl, rfl, rfl, rfl, rfl, ?_, ?_, ?_⟩, rfl, rfl, rfl, rfl⟩
  · intro t o h
    have h := AMap.mem_of_get? h
    have h : (t, o) ∈ [("C", 2), ("D", 3)] := h
    simp at h
    rcases h with ⟨rfl, rfl⟩ | ⟨rfl, rfl⟩ <;> rfl
  · intro t o h
    have h := AMap.mem_of_get? h
    have h : (t, o) ∈ [("C", 2), ("D", 3)] := h
    simp at h
    rcases h with ⟨rfl, rfl⟩ | ⟨rfl, rfl⟩
    · exact ⟨.ready, rfl⟩
    · exact ⟨.entered, rfl⟩
  · intro w hw
    have hw : w ∈ [(⟨3, 0, 2⟩ : WorkItem)] := hw
    simp at hw
    subst hw
    exact ⟨rfl, "C", rfl⟩

example : Reachable plainEnv savedRun ∧ DataOnly plainEnv := ⟨⟨_, _, _, _, _, rfl⟩, dataOnly_table (fun _ => {}) (fun _ => .ok true)⟩

-- the restarted run executes C and D and completes
example : (resumed saved savedRun).map (fun f => ((calls (Eng.run plainEnv f 10) 0).map Ev.name, flowStatus (Eng.run plainEnv f 10) 0)) =
    some ([.evalAct 0 ⟨false, "D"⟩, .evalAct 0 ⟨false, "C"⟩], some .completed) := by decide +kernel

-- the hypotheses of `C88_tester_partial` are met by a world that knows the flow
example : ({ flows := fun _ => .ok (some saved), resources := fun _ => none, modelOk := fun _ => true, nextId := "2" } : Launch.World).find "u" =
    .ok (some saved, false) := rfl

-- the hypotheses of `C88_plain_partial` are met: A and E were executed, B was skipped; C and F are pending, D waits for C
def forkSaved : Eng := Eng.run (GraphCase.falseOn [0]) (Eng.init (GraphCase.falseOn [0]) "1" "u" GraphCase.fork []) 14

example : ∃ I, forkSaved.insts[0]? = some I ∧ Covered I.defn.main ∧ NoSubflows I.defn ∧ (∀ t ∈ I.defn.main.tasks, t.kind = .basic) ∧ Undisturbed I ∧
    forkSaved.stack = [] ∧ I.status = .active ∧ (∀ t, ¬ HasStatus I t .waiting) ∧ I.returnData = none ∧ I.returnError = none ∧
    I.objs.map (fun o => (o.task.id, o.status)) =
      [("A", .done), ("E", .done), ("F", .ready), ("C", .ready), ("B", .skipped), ("D", .entered)] ∧ I.tasks.keys = ["F", "C", "D"] := by
  refine ⟨forkSaved.insts[0]'(by decide +kernel), rfl, GraphCase.fork_covered, ?_, by decide +kernel, ⟨rfl, rfl⟩, rfl, rfl, ?_, rfl, rfl, by decide +kernel, by decide +kernel⟩
  · intro t td h uri
    have h : GraphCase.fork.task? t = some td := h
    obtain ⟨eh, t⟩ := t
    cases eh with
    | true => cases h
    | false => exact GraphCase.fork_leaf td (List.mem_of_find?_eq_some h) uri
  · have hw : ∀ ob ∈ (forkSaved.insts[0]'(by decide +kernel)).objs, ob.status ≠ .waiting := by decide +kernel
    rintro t ⟨ob, h1, _, h2⟩
    exact hw ob h1 h2

example : Reachable (GraphCase.falseOn [0]) forkSaved ∧ DataOnly (GraphCase.falseOn [0]) ∧ SettingsOk (GraphCase.falseOn [0]) :=
  ⟨⟨_, _, _, _, _, rfl⟩, dataOnly_table _ _, fun _ _ _ => rfl⟩

/-- C88 fails within a loop: a task iterates over three elements and has executed two of them. The original executes one more; the
restarted instance starts the loop from the beginning and executes three more. -/
theorem C88_negation_loop : Reachable loopEnv (loopRun .iterator .user 2) ∧ (loopRun .iterator .user 2).stack = [] ∧
    (calls (loopRun .iterator .user 2) 0).length = 2 ∧ (calls (loopRun .iterator .user 20) 0).length = 3 ∧
    flowStatus (loopRun .iterator .user 20) 0 = some .completed ∧
    (resumed (loopFlow .iterator .user) (loopRun .iterator .user 2)).map (fun f => ((calls f 0).length, (calls (Eng.run loopEnv f 20) 0).length,
      flowStatus (Eng.run loopEnv f 20) 0)) = some (0, 3, some .completed) :=
  ⟨⟨_, _, _, _, _, rfl⟩, rfl, by decide, by decide, by decide, by decide +kernel⟩

/-- The restarted instance of `returnedFirst 1` after `n` steps. -/
def returnedAgain (n : Nat) : Option Eng := (resumed returnsFirst (returnedFirst 1)).map (fun f => Eng.run returnsFirstEnv f n)

theorem returnedAgain_end (n : Nat) : (returnedAgain (n + 3)).bind (fun f => flowStatus f 0) = some .active := by
  have h : ∀ n, ∃ k, Eng.run returnsFirstEnv ((resumed returnsFirst (returnedFirst 1)).getD (returnedFirst 0)) (n + 3) =
      { Eng.run returnsFirstEnv ((resumed returnsFirst (returnedFirst 1)).getD (returnedFirst 0)) 3 with stepID := k } := by
    intro n
    induction n with
    | zero => exact ⟨_, rfl⟩
    | succ n ih =>
      obtain ⟨k, hk⟩ := ih
      refine ⟨k + 1, ?_⟩
      show Eng.step returnsFirstEnv (Eng.run returnsFirstEnv _ (n + 3)) = _
      rw [hk]
      rfl
  obtain ⟨k, hk⟩ := h n
  show flowStatus (Eng.run returnsFirstEnv ((resumed returnsFirst (returnedFirst 1)).getD (returnedFirst 0)) (n + 3)) 0 = _
  rw [hk]
  rfl

/-- C88 fails for a flow that has returned to its caller: A has returned data and waits, B is pending. The original completes with
the data when B is done. The restarted instance has forgotten that anything was returned; it waits for A for ever. -/
theorem C88_negation_result : Reachable returnsFirstEnv (returnedFirst 1) ∧ (returnedFirst 1).stack = [] ∧
    flowStatus (returnedFirst 3) 0 = some .completed ∧ ((returnedFirst 3).insts.map (fun I => I.returnData.map AMap.keys)) = [some ["x"]] ∧
    (returnedAgain 3).map (fun f => ((calls f 0).map Ev.name, f.insts.map (fun I => I.returnData.map AMap.keys))) = some ([.evalAct 0 ⟨false, "B"⟩], [none]) ∧
    ∀ n, (returnedAgain (n + 3)).bind (fun f => flowStatus f 0) = some .active :=
  ⟨⟨_, _, _, _, _, rfl⟩, rfl, by decide, by decide, by decide +kernel, returnedAgain_end⟩

/-- C88 fails within the error handler: A has failed and the error handler has been started; it executes G, and then H fails. The
original fails after G and H. The restarted instance has forgotten that it handles an error: the failure of H starts the error
handler again, and G and H are executed twice. -/
theorem C88_negation_handler : Reachable handlesEnv (handlesRun 3) ∧ (handlesRun 3).stack = [] ∧
    flowStatus (handlesRun 20) 0 = some .failed ∧ (calls (handlesRun 20) 0).map Ev.name = [.evalAct 0 ⟨true, "H"⟩, .evalAct 0 ⟨true, "G"⟩, .evalAct 0 ⟨false, "A"⟩] ∧
    (resumed handles (handlesRun 3)).map (fun f => (flowStatus (Eng.run handlesEnv f 20) 0, (calls (Eng.run handlesEnv f 20) 0).map Ev.name)) =
      some (some .failed, [.evalAct 0 ⟨true, "H"⟩, .evalAct 0 ⟨true, "G"⟩, .evalAct 0 ⟨true, "H"⟩, .evalAct 0 ⟨true, "G"⟩]) :=
  ⟨⟨_, _, _, _, _, rfl⟩, rfl, by decide, by decide, by decide +kernel⟩

/-- C88 fails within every error handler with a task whose id is also used in the main flow: in the restarted instance all tasks with this id
are tasks of the main flow. -/
theorem C88_negation_names {d : Def} {r : Restored} {f : Eng} {I : Inst} (h : r.resume d = some f) (hI : f.insts[0]? = some I) {ob : Obj}
    (hob : ob ∈ I.objs) (hm : (d.task? ⟨false, ob.task.id⟩).isSome) : ob.task.eh = false := by
  unfold Restored.resume at h
  split at h
  · obtain ⟨q, _, rfl⟩ := Option.map_eq_some_iff.1 h
    cases hI
    obtain ⟨x, _, rfl⟩ := List.mem_map.1 hob
    dsimp only at hm ⊢
    unfold taskRefOf at hm ⊢
    split at hm
    · rename_i hx
      rw [if_pos hx]
    · rename_i hx
      exact absurd hm hx
  · cases h

/-- A leads to B, which leads to C; if something fails the handler executes its own task B. -/
def namesake : Def := { name := "f", main := ⟨[tk "A", tk "B", tk "C"], deps 0 [("A", "B"), ("B", "C")]⟩, eh := some ⟨[tk "B"], []⟩ }

/-- A fails. -/
def namesakeEnv : Env := tableEnv (fun t => if t = "A" then { res := .err (.plain "boom") } else {}) (fun _ => .ok true)

def namesakeRun (n : Nat) : Eng := Eng.run namesakeEnv (Eng.init namesakeEnv "1" "u" namesake []) n

/-- C88, concretely: A has failed and the error handler has been started. The original executes the task B of the handler; the restarted
instance executes the tasks B and C of the main flow, as if A had succeeded. -/
theorem C88_negation_namesake : Reachable namesakeEnv (namesakeRun 3) ∧ (namesakeRun 3).stack = [] ∧
    flowStatus (namesakeRun 20) 0 = some .completed ∧ (calls (namesakeRun 20) 0).map Ev.name = [.evalAct 0 ⟨true, "B"⟩, .evalAct 0 ⟨false, "A"⟩] ∧
    (resumed namesake (namesakeRun 3)).map (fun f => (flowStatus (Eng.run namesakeEnv f 20) 0, (calls (Eng.run namesakeEnv f 20) 0).map Ev.name)) =
      some (some .completed, [.evalAct 0 ⟨false, "C"⟩, .evalAct 0 ⟨false, "B"⟩]) :=
  ⟨⟨_, _, _, _, _, rfl⟩, by decide, by decide, by decide, by decide +kernel⟩

end Flow
