import Verif.Proofs.LiftStart

/-
The error handler as a flow of its own: whole runs.
-/

namespace Flow

open Spec

namespace Lift

variable {P : Start} {env : Env}

/-! ### Attributes at the start -/

theorem decA_keep (m n : AMap String Val) (h : ∀ p ∈ n, dec p.1 = none) : decA (AMap.update m n) = decA m := by
  induction n generalizing m with
  | nil => rfl
  | cons p n ih =>
    show decA (AMap.update (AMap.set m p.1 p.2) n) = _
    rw [ih _ (fun q hq => h q (List.mem_cons_of_mem _ hq)), decA_set_none _ _ (h p (List.mem_cons_self ..))]

theorem set_fresh {m : AMap String Val} {k : String} (v : Val) (h : k ∉ AMap.keys m) : AMap.set m k v = m ++ [(k, v)] := by
  induction m with
  | nil => rfl
  | cons p m ih =>
    have h1 : p.1 ≠ k := fun hc => h (by rw [← hc]; exact List.mem_cons_self ..)
    show (if p.1 = k then (k, v) :: m else p :: AMap.set m k v) = _
    rw [if_neg h1, ih (fun hc => h (List.mem_cons_of_mem _ hc))]
    rfl

theorem update_fresh {m n : AMap String Val} (h : (AMap.keys (m ++ n)).Nodup) : AMap.update m n = m ++ n := by
  induction n generalizing m with
  | nil => show m = m ++ []; rw [List.append_nil]
  | cons p n ih =>
    have h1 : p.1 ∉ AMap.keys m := by
      unfold AMap.keys at h ⊢
      rw [List.map_append] at h
      exact fun hc => (List.nodup_append.1 h).2.2 p.1 hc p.1 (List.mem_cons_self ..) rfl
    show AMap.update (AMap.set m p.1 p.2) n = _
    rw [set_fresh p.2 h1, ih (by rw [List.append_assoc]; exact h), List.append_assoc]
    rfl

theorem fctx_none (s : String) : dec ("_fctx." ++ s) = none := by
  have h1 : ("_fctx." ++ s).toList = '_' :: 'f' :: 'c' :: 't' :: 'x' :: '.' :: s.toList := by rw [String.toList_append]; rfl
  refine dec_none ?_ fun r hr => ?_
  · unfold kept; rw [h1]; rfl
  · rw [h1] at hr; cases hr

theorem start_attrs (e : Eng) (d : Def) (hd : d.inputs = []) (uri : String) (p : Option (String × String)) {A : AMap String Val} (hA : (AMap.keys A).Nodup) :
    decA (e.startAttrs (envE P env) { defn := d, uri := uri } p (encA A)) = A := by
  unfold Eng.startAttrs
  dsimp only
  rw [hd, decA_update]
  show AMap.update (decA (AMap.update [] _)) A = A
  rw [decA_keep]
  · show AMap.update [] A = A
    exact update_fresh hA
  · intro q hq
    simp only [List.mem_cons, List.not_mem_nil, or_false] at hq
    rcases hq with rfl | rfl | rfl | rfl | rfl | rfl | rfl | rfl
    · exact fctx_none "FlowName"
    · exact fctx_none "FlowId"
    · exact fctx_none "AppName"
    · exact fctx_none "AppVersion"
    · exact fctx_none "TraceId"
    · exact fctx_none "SpanId"
    · exact fctx_none "ParentFlowName"
    · exact fctx_none "ParentFlowId"

/-! ### The start tasks -/

/-- The instance of the error handler as a flow of its own, before its start tasks are entered. -/
noncomputable def first (P : Start) (env : Env) : Inst :=
  ({ ({ defn := P.defn, uri := "" } : Inst) with
      attrs := (Eng.new "" "" P.defn).startAttrs (envE P env) { defn := P.defn, uri := "" } none (encA P.I0.attrs) }).setFlowStatus .active

/-- Its state. -/
noncomputable def before (P : Start) (env : Env) : Eng := (Eng.new "" "" P.defn).modI 0 fun _ => first P env

theorem init_eq : Eng.init (envE P env) "" "" P.defn (encA P.I0.attrs) = Eng.enterStart (envE P env) (before P env) 0 (Inst.startEntries P.defn false) := rfl

theorem startEntries_eq (H : Ok P) : (Inst.startEntries P.defn false).map entE = Inst.startEntries P.I0.defn true := by
  unfold Inst.startEntries
  have h1 : ∀ t : TaskDef, P.I0.defn.fromLinks ⟨true, t.id⟩ = P.defn.fromLinks ⟨false, t.id⟩ := by
    intro t
    show (P.I0.defn.graph true).fromLinks t.id = (P.defn.graph false).fromLinks t.id
    rw [LI.graphE H, LI.graph]
  simp only [h1]
  rw [LI.graphE H, LI.graph, List.map_map]
  rfl

theorem startEntries_length : (Inst.startEntries P.defn false).length = (startTasks P.g).length := by
  unfold Inst.startEntries startTasks
  rw [List.length_map, LI.graph]
  congr 1
  apply List.filter_congr
  intro t _
  rw [Bool.eq_iff_iff]
  simp only [decide_eq_true_eq, Bool.not_eq_true', List.any_eq_false]
  show ((P.defn.graph false).links.filter fun l => l.dst = t.id).length = 0 ↔ _
  rw [LI.graph, List.length_eq_zero_iff, List.filter_eq_nil_iff]
  simp only [decide_eq_true_eq]

theorem first_eq (hf : Fresh P.e0 P.I0) (hforce : P.I0.force = false) (hu : UniqueAttrs P.I0) : instE P (first P env) = P.I0 := by
  have h1 : decA (first P env).attrs = P.I0.attrs := start_attrs _ _ rfl _ _ hu
  unfold instE
  rw [h1]
  have h2 := hf.status
  have h3 := hf.tasks
  have h4 : (first P env).trace.filterMap (evE P) = [] := rfl
  have h5 : (first P env).posted.filterMap (postE P) = [] := rfl
  have h6 : (first P env).status = .active := rfl
  have h7 : (first P env).objs = [] := rfl
  have h8 : (first P env).tasks = [] := rfl
  have h9 : (first P env).links = [] := rfl
  have h10 : (first P env).force = false := rfl
  have h11 : (first P env).returnData = none := rfl
  rw [h4, h5, h6, h7, h8, h9, h10, h11]
  generalize P.I0 = I at h2 h3 hforce
  cases I
  dsimp only at h2 h3 hforce
  subst h2 h3 hforce
  simp

theorem le_before (H : Ok P) (hf : Fresh P.e0 P.I0) (hq : P.e0.queue = []) (hforce : P.I0.force = false) (hu : UniqueAttrs P.I0) :
    LE P P.e0 { before P env with stack := [.enter (Inst.startEntries P.defn false)] } := by
  refine ⟨?_, ⟨first P env, rfl, rfl, rfl⟩, rfl, fun w hw => nomatch hw⟩
  have h1 := first_eq (env := env) hf hforce hu
  have h2 : [Frame.enter (Inst.startEntries P.defn false)].map frmE = [.enter (Inst.startEntries P.I0.defn true)] := by
    rw [← startEntries_eq H]; rfl
  unfold engE
  dsimp only
  rw [h2]
  have h3 : (before P env).insts.map (instE P) = [P.I0] := by
    show [instE P (first P env)] = _
    rw [h1]
  have h4 := hf.insts
  have h5 := hf.cur
  have h6 := hf.stack
  rw [h3, ← h4, ← h6]
  have h7 : (before P env).queue.map (itemE P) = [] := rfl
  have h8 : (before P env).qlog.map (qevE P) = [] := rfl
  have h9 : (before P env).replies = [] := rfl
  have h10 : (before P env).cur = 0 := rfl
  have h11 : (before P env).wiCounter = 0 := rfl
  have h12 : (before P env).stepID = 0 := rfl
  rw [h7, h8, h9, h10, h11, h12]
  generalize P.e0 = e at hq h5
  cases e
  dsimp only at hq h5
  subst hq h5
  simp

/-! ### Entering the start tasks -/

/-- No task that has an instance has incoming links. -/
def Rootless (J : Inst) : Prop := ∀ ob ∈ J.objs, J.defn.fromLinks ob.task = []

theorem rootless_enter {J : Inst} (h : Rootless J) {t : TaskRef} (ht : J.defn.fromLinks t = []) :
    (J.enterTask t).2.2 ≠ .skip ∧ Rootless (J.enterTask t).1 := by
  have hc : Rootless (J.findOrCreateTask t).1 ∧ (J.findOrCreateTask t).1.defn = J.defn := by
    unfold Inst.findOrCreateTask
    split
    · exact ⟨h, rfl⟩
    · refine ⟨fun ob hob => ?_, rfl⟩
      rcases List.mem_append.1 hob with hob | hob
      · exact h ob hob
      · rw [List.mem_singleton.1 hob]; exact ht
  have hset : ∀ (K : Inst) (o : Nat) (s : TaskStatus), Rootless K → Rootless (K.setTaskStatus o s) := by
    intro K o s hK
    unfold Inst.setTaskStatus
    split
    · exact hK
    · intro ob hob
      obtain ⟨ob', h1, h2⟩ : ∃ ob' ∈ K.objs, ob'.task = ob.task := by
        have hob' : ob ∈ K.objs.modify o (fun x => { x with status := s }) := hob
        obtain ⟨k, hk⟩ := List.mem_iff_getElem?.1 hob'
        rw [List.getElem?_modify] at hk
        cases hx : K.objs[k]? with
        | none => rw [hx] at hk; cases hk
        | some x =>
          rw [hx] at hk
          refine ⟨x, List.mem_of_getElem? hx, ?_⟩
          have hk' : (if o = k then ({ x with status := s } : Obj) else x) = ob := Option.some.inj hk
          rw [← hk']
          split <;> rfl
      have := hK ob' h1
      rw [h2] at this
      exact this
  unfold Inst.enterTask
  dsimp only
  split
  · exact ⟨(fun hx => nomatch hx), hc.1⟩
  · rename_i ob hob
    have h1 : (J.findOrCreateTask t).1.defn.fromLinks ob.task = [] := hc.1 ob (List.mem_of_getElem? hob)
    rw [h1]
    have h2 : Rootless (((J.findOrCreateTask t).1.setTaskStatus (J.findOrCreateTask t).2 .entered).findLinks []) := hset _ _ _ hc.1
    split
    · exact ⟨(fun hx => nomatch hx), h2⟩
    · exact ⟨(fun hx => nomatch hx), hset _ _ _ h2⟩
    · rename_i hx; cases hx

theorem enter_all (H : Ok P) (hset : SettingsOk env) : ∀ (es : List TaskEntry) (e f : Eng) (J : Inst), (∀ x ∈ es, P.defn.fromLinks x.task = []) →
    LE P e { f with stack := [.enter es] } → f.insts = [J] → Rootless J →
    LE P (Eng.run env e (es.length + 1)) { Eng.enterStart (envE P env) f 0 es with stack := [] }
  | [], e, f, J, _, h, _, _ => by
    have h1 : e.stack = [.enter []] := by rw [h.eq]; rfl
    show LE P (Eng.step env e) _
    unfold Eng.step
    rw [h1]
    exact h.stay []
  | x :: xs, e, f, J, hes, h, hJ, hR => by
    have hd : J.defn = P.defn := by
      obtain ⟨K, h1, h2, _⟩ := h.one
      have h1' : f.insts = [K] := h1
      rw [hJ] at h1'
      cases h1'
      exact h2
    have hI : f.insts[0]? = some J := by rw [hJ]; rfl
    have h1 : e.stack = [.enter (entE x :: xs.map entE)] := by rw [h.eq]; rfl
    have hr := rootless_enter hR (t := x.task) (by rw [hd]; exact hes x (List.mem_cons_self ..))
    have h2 := h.enterEntry (env := env) H x xs []
    have h3 : Eng.step env e = Eng.enterEntry env e (entE x) (xs.map entE) [] := by
      unfold Eng.step; rw [h1]
    rw [List.length_cons, Eng.run_succ', h3]
    have hcur : f.cur = 0 := h.cur
    have hso : ∀ e i o, (envE P env).settingsOk e i o = true := fun e i o => hset _ _ _
    have m1 : ∀ K, (f.modI 0 fun _ => K).insts = [K] := fun K => Eng.modI_one hJ _
    obtain ⟨f', J', h4, h5, h6, h7⟩ : ∃ (f' : Eng) (J' : Inst), Eng.enterEntry (envE P env) { f with stack := [.enter (x :: xs)] } x xs [] =
        { f' with stack := [.enter xs] } ∧ Eng.enterStart (envE P env) f 0 (x :: xs) = Eng.enterStart (envE P env) f' 0 xs ∧ f'.insts = [J'] ∧ Rootless J' := by
      clear h h1 h2 h3
      obtain ⟨fid, fin, fq, fw, fs, fsc, fsf, fc, fst, frp, fql⟩ := f
      dsimp only at hcur hI
      subst hcur
      unfold Eng.enterEntry
      rw [Eng.enterStart]
      dsimp only
      rw [hI]
      dsimp only
      rw [hso, hso]
      cases hx : (J.enterTask x.task).2.2 with
      | skip => exact absurd hx hr.1
      | notReady => exact ⟨Eng.modI ⟨fid, fin, fq, fw, fs, fsc, fsf, 0, fst, frp, fql⟩ 0 fun _ => (J.enterTask x.task).1, _, rfl, rfl, m1 _, hr.2⟩
      | eval => exact ⟨(Eng.modI ⟨fid, fin, fq, fw, fs, fsc, fsf, 0, fst, frp, fql⟩ 0 fun _ => (J.enterTask x.task).1).schedule 0 (J.enterTask x.task).2.1, _, rfl, rfl, m1 _, hr.2⟩
    rw [h5]
    exact enter_all H hset xs _ f' J' (fun y hy => hes y (List.mem_cons_of_mem _ hy)) (by rw [← h4]; exact h2) h6 h7

/-- The error handler as a flow of its own. -/
noncomputable def own (P : Start) (env : Env) : Eng := Eng.init (envE P env) "" "" P.defn (encA P.I0.attrs)

theorem le_own (H : Ok P) (hset : SettingsOk env) (hf : Fresh P.e0 P.I0) (hq : P.e0.queue = []) (hforce : P.I0.force = false) (hu : UniqueAttrs P.I0) :
    LE P (Eng.run env P.e0 ((startTasks P.g).length + 1)) (own P env) := by
  have h1 := enter_all H hset (Inst.startEntries P.defn false) P.e0 (before P env) (first P env) (fun x hx => by
    unfold Inst.startEntries at hx
    obtain ⟨t, ht, rfl⟩ := List.mem_map.1 hx
    exact List.length_eq_zero_iff.1 (of_decide_eq_true (List.mem_filter.1 ht).2))
    (le_before H hf hq hforce hu) rfl (fun ob hob => nomatch hob)
  rw [startEntries_length, ← init_eq] at h1
  have h2 : (Eng.init (envE P env) "" "" P.defn (encA P.I0.attrs)).stack = [] :=
    (Eng.StartFrame.startInstance (env := envE P env) 0 (Eng.new "" "" P.defn) (encA P.I0.attrs)).stack
  have h3 : ∀ f : Eng, f.stack = [] → { f with stack := [] } = f := by intro f hf; rw [← hf]
  rw [h3 _ h2] at h1
  exact h1

theorem le_run (H : Ok P) (hset : SettingsOk env) (hf : Fresh P.e0 P.I0) (hq : P.e0.queue = []) (hforce : P.I0.force = false) (hu : UniqueAttrs P.I0)
    (hr : Reachable env P.e0) (m : Nat)
    (hp : ∀ k, k < (startTasks P.g).length + 1 + m → panics env (Eng.run env P.e0 k) = false)
    (hn : ¬ LE.Failed (Eng.run env P.e0 ((startTasks P.g).length + 1 + m))) :
    LE P (Eng.run env P.e0 ((startTasks P.g).length + 1 + m)) (Eng.run (envE P env) (own P env) m) := by
  induction m with
  | zero => exact le_own H hset hf hq hforce hu
  | succ m ih =>
    have hre : Reachable env (Eng.run env P.e0 ((startTasks P.g).length + 1 + m)) := by
      obtain ⟨id, uri, d, ins, n, hh⟩ := hr
      exact ⟨id, uri, d, ins, n + ((startTasks P.g).length + 1 + m), by rw [Eng.run_add env _ n, ← hh]⟩
    have h1 := ih (fun k hk => hp k (by omega)) (fun hx => hn (by
      have := (C10_finished_stays_finished hre (Or.inr rfl) hx 1).1
      exact this))
    rcases h1.step H (hp _ (by omega)) with h2 | h2
    · exact h2
    · exact absurd h2 hn

/-! ### Rounds of loops -/

namespace LE

variable {e f : Eng}

theorem outcomeEq (H : Ok P) (h : LE P e f) (b : Nat) : (outcome env e 0 (P.sh b)).map (·.2) = (outcome (envE P env) f 0 b).map (·.2) := by
  unfold outcome
  rw [h.objEq]
  generalize f.obj? 0 b = x
  cases x with
  | none => rfl
  | some ob =>
    dsimp only [Option.map_some]
    have ht : e.taskDef? 0 (objE ob).task = f.taskDef? 0 ob.task := h.taskDef H ob.task
    rw [ht]
    generalize f.taskDef? 0 ob.task = y
    cases y with
    | none => rfl
    | some td =>
      dsimp only
      have h3 := (h.postKind (env := env) H b td).2
      have h4 := (h.evalKind (env := env) H b td).2
      have hs : (objE ob).status = ob.status := rfl
      rw [hs]
      split
      · exact congrArg some h3
      · split
        · rfl
        · exact congrArg some h4

theorem nextEq (h : LE P e f) : next env e = (next (envE P env) f).map (itemE P) := by
  have hpick : (envE P env).pick f = env.pick e := by rw [h.eq]; rfl
  have hq : e.queue = f.queue.map (itemE P) := by rw [h.eq]; rfl
  have hlen : e.queue.length = f.queue.length := by rw [hq, List.length_map]
  obtain ⟨I, J, h1, h2, h3⟩ := h.inst0
  have hst : I.status = J.status := by rw [h3.eq]; rfl
  have hfl : flowStatus e 0 = flowStatus f 0 := by unfold flowStatus; rw [h1, h2]; exact congrArg some hst
  have hse : e.stack = [] ↔ f.stack = [] := by
    rw [h.eq]
    show f.stack.map frmE = [] ↔ _
    exact List.map_eq_nil_iff
  unfold next
  rw [hfl, hpick]
  by_cases hc : f.stack = [] ∧ flowStatus f 0 = some .active
  · rw [if_pos hc, if_pos ⟨hse.2 hc.1, hc.2⟩, hlen, hq]
    exact getElem?_map_item _ _
  · rw [if_neg hc, if_neg (fun hx => hc ⟨hse.1 hx.1, hx.2⟩)]
    rfl

theorem popped (h : LE P e f) (w : WorkItem) : LE P (afterPop env e (itemE P w)) (afterPop (envE P env) f w) := by
  have hpick : (envE P env).pick f = env.pick e := by rw [h.eq]; rfl
  have hq : e.queue = f.queue.map (itemE P) := by rw [h.eq]; rfl
  have hlen : e.queue.length = f.queue.length := by rw [hq, List.length_map]
  unfold afterPop
  rw [hpick]
  refine ⟨?_, h.one, h.cur, fun w' hw' => h.items w' (List.mem_of_mem_eraseIdx hw')⟩
  generalize hkk : env.pick e % f.queue.length = k
  rw [hlen, hkk, hq, h.eq]
  unfold engE
  dsimp only
  rw [map_erase]; rfl

theorem loopsEq (H : Ok P) (h : LE P e f) : loopsBack env e = loopsBack (envE P env) f := by
  unfold loopsBack
  rw [h.nextEq]
  cases hn : next (envE P env) f with
  | none => rfl
  | some w =>
    have hi : w.inst = 0 := by
      unfold next at hn
      split at hn
      · exact h.items w (List.mem_of_getElem? hn)
      · cases hn
    have h1 := (h.popped (env := env) w).outcomeEq (env := env) H w.obj
    have hi' : (itemE P w).inst = 0 := hi
    have ho : (itemE P w).obj = P.sh w.obj := rfl
    rw [Option.map_some, Option.any_some, Option.any_some, hi', ho, hi]
    generalize outcome env _ 0 (P.sh w.obj) = x at h1 ⊢
    generalize outcome (envE P env) _ 0 w.obj = y at h1 ⊢
    cases x <;> cases y
    · rfl
    · cases h1
    · cases h1
    · exact congrArg isAgain (Option.some.inj h1)

end LE

theorem rounds_le (H : Ok P) (hset : SettingsOk env) (hf : Fresh P.e0 P.I0) (hq : P.e0.queue = []) (hforce : P.I0.force = false) (hu : UniqueAttrs P.I0)
    (hr : Reachable env P.e0) (m : Nat)
    (hp : ∀ k, k < (startTasks P.g).length + 1 + m → panics env (Eng.run env P.e0 k) = false)
    (hn : ¬ LE.Failed (Eng.run env P.e0 ((startTasks P.g).length + 1 + m))) :
    loopRounds (envE P env) (own P env) m ≤ loopRounds env P.e0 ((startTasks P.g).length + 1 + m) := by
  unfold loopRounds
  generalize hk : (startTasks P.g).length + 1 = k at hp hn ⊢
  rw [List.range_add, List.countP_append, List.countP_map]
  refine Nat.le_trans (Nat.le_of_eq ?_) (Nat.le_add_left ..)
  apply List.countP_congr
  intro j hj
  rw [List.mem_range] at hj
  have hre : Reachable env (Eng.run env P.e0 (k + j)) := by
    obtain ⟨id, uri, d, ins, n, hh⟩ := hr
    exact ⟨id, uri, d, ins, n + (k + j), by rw [Eng.run_add env _ n, ← hh]⟩
  have h1 := le_run H hset hf hq hforce hu hr j (fun i hi => hp i (by rw [hk] at hi; omega)) (fun hx => hn (by
    rw [hk] at hx
    have := (C10_finished_stays_finished hre (Or.inr rfl) hx (m - j)).1
    rw [← Eng.run_add] at this
    have he : k + j + (m - j) = k + m := by omega
    rw [he] at this
    exact this))
  rw [hk] at h1
  show _ ↔ loopsBack env (Eng.run env P.e0 (k + j)) = true
  rw [h1.loopsEq H]

/-! ### What is seen of the error handler -/

theorem handler_last {tr : List Ev} (h : HandlerLast tr) {ev : Ev} (hm : ev ∈ tr) {t : TaskRef} (ht : evTask ev = some t) (he : t.eh = true) : .ehStart ∈ tr := by
  induction tr with
  | nil => cases hm
  | cons x tr ih =>
    rcases List.mem_cons.1 hm with rfl | hm
    · exact List.mem_cons_of_mem _ (h.1 t ht he)
    · exact List.mem_cons_of_mem _ (ih h.2 hm)

/-- What is seen of the flow that handles the error is what is seen of the error handler as a flow of its own. -/
structure Likeness (env : Env) (e : Eng) (I0 J : Inst) (g : Graph) (env' : Env) (f : Eng) (J' : Inst) : Prop where
  settings : SettingsOk env'
  reach : Reachable env' f
  inst : f.insts[0]? = some J'
  graph : J'.defn.main = g
  undisturbed : Undisturbed J'
  status : J'.status = J.status
  executed : ∀ tr, J.trace = tr ++ I0.trace → ∀ t, ExecutedEh tr t ↔ Executed J'.trace t
  decided : ∀ tr, J.trace = tr ++ I0.trace → ∀ k s, .linkStatus k s ∈ tr ↔ .linkStatus k s ∈ J'.trace
  evals : ∀ tr, J.trace = tr ++ I0.trace → ∀ t, (evalsEh tr t).length = (evalsOf f 0 ⟨false, t⟩).length
  has : ∀ t s, HasStatusEh J t s ↔ HasStatus J' t s
  queue : e.queue = [] ↔ f.queue = []
  items : ∀ w ∈ f.queue, w.inst = 0
  stack : e.stack = [] ↔ f.stack = []

theorem view_of (hset : SettingsOk env) {e f : Eng} (h : LE P e f) {J : Inst} (hJ : e.insts[0]? = some J) (hforce : J.force = false)
    (hr : Reachable (envE P env) f) (ho : ∀ ob ∈ P.I0.objs, ob.task.eh = false) : ∃ J', Likeness env e P.I0 J P.g (envE P env) f J' := by
  obtain ⟨I, J', h1, h2, h3⟩ := h.inst0
  rw [h1] at hJ; cases hJ
  have hE := (Eng.ehOK_reachable hr).all 0 J' h2
  have hns : .ehStart ∉ J'.trace := fun hx => by
    have := ((Eng.engOK_reachable hr).ok 0 J' h2).eh hx
    rw [h3.handling] at this; cases this
  have hev : ∀ ev ∈ J'.trace, ∀ t, evTask ev = some t → t.eh = false := fun ev hm t ht => by
    cases he : t.eh with
    | false => rfl
    | true => exact absurd (handler_last hE.trace hm ht he) hns
  have hob : ∀ ob ∈ J'.objs, ob.task.eh = false := fun ob hm => by
    cases he : ob.task.eh with
    | false => rfl
    | true => exact absurd (hE.objs ob hm he) hns
  have htr : ∀ tr, J.trace = tr ++ P.I0.trace → tr = J'.trace.filterMap (evE P) := fun tr ht => by
    rw [h3.eq] at ht
    exact (List.append_cancel_right ht).symm
  refine ⟨J', fun e i o => hset _ _ _, hr, h2, ?_, ⟨h3.handling, ?_⟩, ?_, ?_, ?_, ?_, ?_, ?_, h.items, ?_⟩
  · rw [h3.defn]; rfl
  · rw [h3.eq] at hforce; exact hforce
  · rw [h3.eq]; rfl
  · intro tr ht t
    rw [htr tr ht]
    constructor
    · rintro ⟨o, ho⟩
      obtain ⟨ev, hm, he⟩ := List.mem_filterMap.1 ho
      cases ev with
      | taskStatus o' t' s =>
        cases he
        have h5 := hev _ hm t' rfl
        obtain ⟨b, u⟩ := t'
        dsimp only at h5
        subst h5
        exact ⟨o', hm⟩
      | flowStatus s => cases s <;> cases he
      | _ => cases he
    · rintro ⟨o, ho⟩
      exact ⟨P.sh o, List.mem_filterMap.2 ⟨_, ho, rfl⟩⟩
  · intro tr ht k s
    rw [htr tr ht]
    constructor
    · intro ho
      obtain ⟨ev, hm, he⟩ := List.mem_filterMap.1 ho
      cases ev with
      | linkStatus k' s' => cases he; exact hm
      | flowStatus s => cases s <;> cases he
      | _ => cases he
    · exact fun ho => List.mem_filterMap.2 ⟨_, ho, rfl⟩
  · intro tr ht t
    rw [htr tr ht]
    unfold evalsOf evalsEh
    rw [h2]
    dsimp only
    clear htr ht hE hns
    generalize J'.trace = l at hev
    induction l with
    | nil => rfl
    | cons ev l ih =>
      have ih := ih fun x hx => hev x (List.mem_cons_of_mem _ hx)
      have h5 := hev ev (List.mem_cons_self ..)
      cases ev with
      | evalAct o u =>
        have h6 := h5 u rfl
        obtain ⟨b, u⟩ := u
        dsimp only at h6
        subst h6
        have h7 : evE P (.evalAct o ⟨false, u⟩) = some (.evalAct (P.sh o) ⟨true, u⟩) := rfl
        rw [List.filterMap_cons_some h7, List.filter_cons, List.filter_cons]
        simp only [TaskRef.mk.injEq, true_and]
        split
        · rw [List.length_cons, List.length_cons, ih]
        · exact ih
      | flowStatus s =>
        cases s with
        | active => exact ih
        | _ => exact ih
      | _ => exact ih
  · intro t s
    constructor
    · rintro ⟨ob, hm, h5, h6⟩
      rw [h3.eq] at hm
      rcases List.mem_append.1 hm with hm | hm
      · have := ho ob hm
        rw [h5] at this
        cases this
      · obtain ⟨ob', hm', rfl⟩ := List.mem_map.1 hm
        have h7 := hob ob' hm'
        refine ⟨ob', hm', ?_, h6⟩
        have h8 : ob'.task.id = t := congrArg TaskRef.id h5
        cases hx : ob'.task with
        | mk b u =>
          rw [hx] at h7 h8
          dsimp only at h7 h8
          rw [h7, h8]
    · rintro ⟨ob, hm, h5, h6⟩
      refine ⟨objE ob, ?_, ?_, h6⟩
      · rw [h3.eq]
        exact List.mem_append_right _ (List.mem_map_of_mem hm)
      · show refE ob.task = _
        rw [h5]; rfl
  · rw [h.eq]
    show f.queue.map (itemE P) = [] ↔ _
    exact List.map_eq_nil_iff
  · rw [h.eq]
    show f.stack.map frmE = [] ↔ _
    exact List.map_eq_nil_iff

/-! ### Error handlers that have been started -/

theorem ext_run (hr : Reachable env e) (n : Nat) : Eng.EExt e (Eng.run env e n) := by
  induction n with
  | zero => exact .refl _
  | succ n ih =>
    have hre : Reachable env (Eng.run env e n) := by
      obtain ⟨id, uri, d, ins, m, hh⟩ := hr
      exact ⟨id, uri, d, ins, m + n, by rw [Eng.run_add env _ m, ← hh]⟩
    exact ih.trans (Eng.Good.step (env := env) (Eng.run env e n) (Eng.engOK_reachable hre)).2

theorem step_reach {e : Eng} (h : Reachable env e) : Reachable env (Eng.step env e) := by
  obtain ⟨id, uri, d, ins, m, hh⟩ := h
  exact ⟨id, uri, d, ins, m + 1, by rw [hh]; rfl⟩

/-- Everything needed of the start of an error handler. -/
theorem starts_ok {e : Eng} {I0 J : Inst} {g : Graph} {n : Nat} (h : HandlerRun env e I0 g n J) (hd : LinksDistinct I0.defn) (hlf : Leaf g) :
    Ok ⟨Eng.step env e, I0, g⟩ ∧ Fresh (Eng.step env e) I0 ∧ I0.force = false ∧ UniqueAttrs I0 ∧ Reachable env (Eng.step env e) ∧
      ∃ tr, J.trace = tr ++ I0.trace := by
  have hF := begins h.reach h.starts
  have hr := step_reach h.reach
  have hI0 : (Eng.step env e).insts[0]? = some I0 := by rw [h.starts.after]; rfl
  obtain ⟨J', h1, h2⟩ := ext_run hr n 0 I0 hI0
  rw [h.inst] at h1; cases h1
  refine ⟨⟨h.starts.handler, h.starts.handling, fun l hl hk => ?_, hlf⟩, hF, ?_, unique_reachable hr 0 I0 hI0, hr, h2.trace⟩
  · obtain ⟨l', h3, h4⟩ := hF.links _ hk
    have h5 : g = I0.defn.eh.getD ⟨[], []⟩ := by rw [h.starts.handler]; rfl
    unfold LinksDistinct at hd
    rw [← h5] at hd
    exact (List.nodup_append.1 hd).2.2 _ (List.mem_map_of_mem h3) _ (List.mem_map_of_mem hl) h4
  · cases hx : I0.force with
    | false => rfl
    | true => have := h2.force hx; rw [h.force] at this; cases this

theorem not_failed {e : Eng} {J : Inst} (h : e.insts[0]? = some J) (hf : J.status ≠ .failed) : ¬ LE.Failed e := by
  unfold LE.Failed flowStatus
  rw [h]
  exact fun hx => hf (Option.some.inj hx)

/-- The error handler is executed like a flow of its own. -/
theorem view {e : Eng} {I0 J : Inst} {g : Graph} {n : Nat} (h : HandlerRun env e I0 g n J) (hset : SettingsOk env) (hd : LinksDistinct I0.defn)
    (hlf : Leaf g) (hn : (startTasks g).length < n) :
    ∃ env' f J', Likeness env (Eng.run env (Eng.step env e) n) I0 J g env' f J' := by
  obtain ⟨h1, h2, h3, h4, h5, _⟩ := starts_ok h hd hlf
  obtain ⟨m, rfl⟩ : ∃ m, n = (startTasks g).length + 1 + m := ⟨n - ((startTasks g).length + 1), by omega⟩
  have h6 := le_run h1 hset h2 h.starts.pending h3 h4 h5 m h.calm (not_failed h.inst h.fine)
  obtain ⟨J', h7⟩ := view_of hset h6 h.inst h.force ⟨_, _, _, _, m, rfl⟩ h2.objs
  exact ⟨_, _, J', h7⟩

end Lift

end Flow
