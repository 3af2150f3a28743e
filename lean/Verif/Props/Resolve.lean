import Verif.Props.Attrs
import Verif.Props.Outputs
import Verif.Props.Results
import Verif.Props.Accumulate
import Verif.Model.Resolve
import Verif.Spec.Resolve

/-
C83: what the references `$activity`, `$error` and `$iteration` in the expressions of a flow refer to.
-/

namespace Flow

open Spec Res

variable {env : Env} {i o : Nat} {t : TaskRef} {td : TaskDef} {path : Val → String → Option Val}

/-! ### Names -/

theorem key_head (t n : String) : ∃ l, (Out.key t n).toList = '_' :: 'A' :: '.' :: l := by
  rw [key_toList]; exact ⟨_, rfl⟩

theorem key_not_error (t n : String) {k : String} {l : List Char} (hk : k.toList = '_' :: 'E' :: l) : Out.key t n ≠ k := by
  intro h
  obtain ⟨m, hm⟩ := key_head t n
  rw [h, hk] at hm
  simp at hm

theorem get_mem {m : AMap String Val} {k : String} {v : Val} (h : m.get? k = some v) : k ∈ m.keys := by
  induction m with
  | nil => cases h
  | cons p m ih =>
    obtain ⟨a, b⟩ := p
    by_cases ha : a = k
    · subst ha; simp [AMap.keys]
    · have : AMap.get? m k = some v := by simpa [AMap.get?, ha] using h
      exact List.mem_cons_of_mem _ (ih this)

theorem default_key {id : TaskId} {declared : Option (List String)} {outs : AMap String Val} {k : String} {v : Val}
    (h : (Out.defaultApply id declared outs).get? k = some v) : ∃ n, k = Out.key id n := by
  have hm := get_mem h
  unfold Out.defaultApply at hm
  cases declared with
  | none => cases hm
  | some names =>
    simp only [AMap.keys, List.mem_map, List.mem_filterMap] at hm
    obtain ⟨p, ⟨n, _, hp⟩, rfl⟩ := hm
    cases hv : outs.get? n with
    | none => rw [hv] at hp; cases hp
    | some w => rw [hv] at hp; cases hp; exact ⟨n, rfl⟩

theorem default_keys_nodup (id : TaskId) {names : List String} (hn : names.Nodup) (outs : AMap String Val) :
    (Out.defaultApply id (some names) outs).keys.Nodup := by
  unfold Out.defaultApply AMap.keys
  dsimp only
  induction names with
  | nil => simp
  | cons n names ih =>
    obtain ⟨h1, h2⟩ := List.nodup_cons.1 hn
    rw [List.filterMap_cons]
    cases hv : outs.get? n with
    | none => exact ih h2
    | some v =>
      simp only [Option.map_some, List.map_cons, List.nodup_cons]
      refine ⟨fun hm => ?_, ih h2⟩
      simp only [List.mem_map, List.mem_filterMap] at hm
      obtain ⟨p, ⟨m, hm, hp⟩, hk⟩ := hm
      cases hw : outs.get? m with
      | none => rw [hw] at hp; cases hp
      | some w =>
        rw [hw] at hp; cases hp
        have h3 := congrArg String.toList hk
        dsimp only at h3
        rw [key_toList, key_toList] at h3
        have h4 := List.append_cancel_left (List.append_cancel_left h3)
        have h5 := String.toList_inj.1 (List.cons.inj h4).2
        subst h5
        exact h1 hm

theorem default_get {id : TaskId} {names : List String} (hn : names.Nodup) {outs : AMap String Val} {n : String} (hm : n ∈ names)
    {v : Val} (hv : outs.get? n = some v) : (Out.defaultApply id (some names) outs).get? (Out.key id n) = some v := by
  have hinj : ∀ n' ∈ names, Out.key id n' = Out.key id n → n' = n := fun n' _ hk => by
    have h3 := congrArg String.toList hk
    rw [key_toList, key_toList] at h3
    exact String.toList_inj.1 (List.cons.inj (List.append_cancel_left (List.append_cancel_left h3))).2
  have h1 := update_own [] id names outs n hinj
  rw [if_pos hm, hv] at h1
  have h2 := AMap.get?_update ([] : AMap String Val) (Out.defaultApply id (some names) outs) (default_keys_nodup id hn outs) (Out.key id n)
  rw [h1] at h2
  cases h3 : (Out.defaultApply id (some names) outs).get? (Out.key id n) with
  | none => rw [h3] at h2; exact absurd h2 (by simp)
  | some w => rw [h3] at h2; exact h2.symm

/-- Only executions of a task write its outputs. -/
theorem writes_outputs {declared : Declared} (hm : DefaultMapping env declared) {id n : String} (hid : '.' ∉ id.toList)
    (ht : '.' ∉ t.id.toList) (h : Writes env i o t td (Out.key id n)) : t.id = id := by
  cases h with
  | act c hc v h => rw [hm.act c i o _ (key_prefix id n)] at h; cases h
  | post c hc v h => rw [hm.post c i o _ (key_prefix id n)] at h; cases h
  | out c hc vals err v hv h =>
    obtain ⟨ob, ho, rfl⟩ := hc
    rw [hm.out c i o ob ho] at hv
    cases hv
    obtain ⟨n', hk⟩ := default_key h
    exact (key_ids hk.symm hid ht).1
  | accumulated ha h =>
    have h3 := congrArg String.toList h
    rw [key_toList, String.toList_append] at h3
    have h4 := List.append_cancel_left h3
    exact absurd (by rw [← h4]; simp) ht
  | error h => exact absurd h (key_not_error id n rfl)
  | taskError h => exact absurd h (key_not_error id n (l := '.' :: t.id.toList) (by rw [String.toList_append]; rfl))

/-- Only executions of a task write its error. -/
theorem writes_error (hm : NoErrorWrites env) {id : String} (h : Writes env i o t td ("_E." ++ id)) : t.id = id := by
  have hp : "_E".toList <+: ("_E." ++ id).toList := ⟨'.' :: id.toList, by rw [String.toList_append]; rfl⟩
  cases h with
  | act c hc v h => rw [hm.act c i o _ hp] at h; cases h
  | post c hc v h => rw [hm.post c i o _ hp] at h; cases h
  | out c hc vals err v hv h => rw [hm.out c i o vals err _ hv hp] at h; cases h
  | accumulated ha h => exact absurd h (Eng.errKey_ne _ _)
  | error h =>
    have := congrArg String.toList h
    rw [String.toList_append] at this
    simp at this
  | taskError h =>
    have := congrArg String.toList h
    rw [String.toList_append, String.toList_append] at this
    exact (String.toList_inj.1 (List.append_cancel_left this)).symm

theorem plainTasks_run {e : Eng} (hr : Reachable env e) (hi : i < e.insts.length) (hp : PlainTasks e i) (n : Nat) :
    PlainTasks (Eng.run env e n) i := by
  have h : Reachable env (Eng.run env e n) ∧ i < (Eng.run env e n).insts.length ∧ PlainTasks (Eng.run env e n) i := by
    induction n with
    | zero => exact ⟨hr, hi, hp⟩
    | succ n ih =>
      obtain ⟨h1, h2, h3⟩ := ih
      refine ⟨Eng.reachable_step h1, instance_stays h1 h2, fun u td hu => h3 u td ?_⟩
      obtain ⟨I, hI⟩ : ∃ I, (Eng.run env e n).insts[i]? = some I := ⟨_, List.getElem?_eq_getElem h2⟩
      obtain ⟨I', hI', hx⟩ := (Eng.Good.step (env := env) _ (Eng.engOK_reachable h1)).2 i I hI
      have hu : ((Eng.run env e n).step env).taskDef? i u = some td := hu
      unfold Eng.taskDef? at hu ⊢
      rw [hI'] at hu
      rw [hI]
      dsimp only at hu ⊢
      rw [← hx.defn]; exact hu
  exact h.2.2

/-- Names that do not belong to the working data are looked up in the flow instance. -/
theorem scope_attr {e : Eng} {p : Nat} {k : String} (hk : Scp.workingName k = none) : taskScope e i p k = attrAt e i k := by
  unfold Res.taskScope Spec.attrAt
  cases e.insts[i]? with
  | none => rfl
  | some I =>
    dsimp only [Option.bind]
    split
    · rfl
    · split
      · rw [hk]
      · rfl

theorem working_none {k : String} {a : Char} {l : List Char} (hk : k.toList = '_' :: a :: l) (ha : a ≠ 'W') : Scp.workingName k = none := by
  unfold Scp.workingName
  rw [hk, if_neg]
  simp [List.isPrefixOf, ha.symm]

/-! ### The property -/

/-- C83, `$activity[t].n`: after an execution of task `t` finished with the value `v` for its output `n`, the reference yields `v`
for every task of the same flow instance, as long as no task with this name is executed again. -/
theorem C83_activity {declared : Declared} (hm : DefaultMapping env declared) {e e' : Eng} (hr : Reachable env e)
    (hp : PlainTasks e i) {r : Eng.EvalOut} (hev : Evaluates env e i o t e' r) (htd : e.taskDef? i t = some td)
    (hn : ¬Accumulating td) (hf : FinishesIteration env td e i o r)
    {names : List String} (hd : declared t = some names) (hnd : names.Nodup) {n : String} (hmem : n ∈ names) (hne : n ≠ "")
    {v : Val} (hv : AMap.get? (((e'.obj? i o).bind (·.outputs)).getD []) n = some v)
    {l : Nat} (hl : ∀ m, 0 < m → m ≤ l → ¬ExecutesTask env (Eng.run env e m) i t.id) (p : Nat) :
    resolve path (taskScope (Eng.run env e (l + 1)) i p) (.activity t.id n) = some v := by
  obtain ⟨ob0, td0, ho0, ht0, _⟩ := Eng.evaluates_obj hev
  obtain ⟨I0, hI0, _⟩ := Eng.obj?_some ho0
  have hi : i < e.insts.length := (List.getElem?_eq_some_iff.mp hI0).1
  obtain ⟨k, hk⟩ := key_head t.id n
  obtain ⟨c, hc, ho, h⟩ := C82_available hr hev htd hn hf
  obtain ⟨ob, hob, hobt⟩ := hc
  have hout := hm.out c i o ob hob
  rw [hobt, hd] at hout
  have hov : (ob.outputs.getD []).get? n = some v := by
    unfold Spec.outputsOf at ho
    rw [hob] at ho
    have : ob.outputs.getD [] = ((e'.obj? i o).bind (·.outputs)).getD [] := by simpa using ho
    rw [this]; exact hv
  have h1 := h _ hout (default_keys_nodup _ hnd _) (Out.key t.id n) v (default_get hnd hmem hov)
    (key_not_error _ _ rfl) (key_not_error _ _ (l := '.' :: t.id.toList) (by rw [String.toList_append]; rfl)) l fun m h0 hml => by
      rintro ⟨o2, t2, e2, r2, td2, hev2, htd2, hw⟩
      exact hl m h0 hml ⟨o2, t2, e2, r2, hev2, writes_outputs hm (hp t td htd) (plainTasks_run hr hi hp m t2 td2 htd2) hw⟩
  unfold Res.resolve
  dsimp only
  rw [if_pos hne, scope_attr (working_none hk (by decide))]
  exact h1

/-- C83, `$activity[id].n` fails as long as no task with this name has been executed in the flow instance (unless the attribute was
supplied from outside). -/
theorem C83_activity_unset {declared : Declared} (hm : DefaultMapping env declared) {e : Eng} (hr : Reachable env e)
    (hi : i < e.insts.length) (hp : PlainTasks e i) {id n : String} (hid : '.' ∉ id.toList) (hne : n ≠ "")
    (h0 : attrAt e i (Out.key id n) = none) {l : Nat} (hl : ∀ m < l, ¬ExecutesTask env (Eng.run env e m) i id) (p : Nat) :
    resolve path (taskScope (Eng.run env e l) i p) (.activity id n) = none := by
  obtain ⟨k, hk⟩ := key_head id n
  have h1 := C82_kept hr hi (k := Out.key id n) l fun m hml => by
    rintro ⟨o2, t2, e2, r2, td2, hev2, htd2, hw⟩
    exact hl m hml ⟨o2, t2, e2, r2, hev2, writes_outputs hm hid (plainTasks_run hr hi hp m t2 td2 htd2) hw⟩
  unfold Res.resolve
  dsimp only
  rw [if_pos hne, scope_attr (working_none hk (by decide)), h1, h0]

/-- C83, `$error[t]`: after a failed execution of task `t` the reference yields an object that describes the error, and
`$error[t].f` its field `f`, as long as no task with this name is executed again. Tasks without error link in the error handler
of a called flow are excluded: the error ends that flow. -/
theorem C83_error (hm : NoErrorWrites env) {e e' : Eng} (hr : Reachable env e) {I : Inst} (hI : e.insts[i]? = some I) {err : Err}
    (hev : Evaluates env e i o t e' (.err err)) (hh : hasErrorLink I.defn t ∨ I.handling = false ∨ i = 0) (hid : t.id ≠ "") :
    ∃ v, Describes v t.id err ∧ ∀ l, (∀ m, 0 < m → m ≤ l → ¬ExecutesTask env (Eng.run env e m) i t.id) → ∀ p f,
      resolve path (taskScope (Eng.run env e (l + 1)) i p) (.error t.id f) = if f = "" then some v else path v ("." ++ f) := by
  obtain ⟨J, v, hJ, hv, hd⟩ : ∃ J v, (e.step env).insts[i]? = some J ∧ J.attrs.get? ("_E." ++ t.id) = some v ∧ Describes v t.id err := by
    by_cases hl : hasErrorLink I.defn t
    · exact C46_with_error_link hI hev hl
    · by_cases hhd : I.handling = false
      · obtain ⟨J, v, h1, h2, _, h3⟩ := C46_without_error_link hr hI hev hl hhd
        exact ⟨J, v, h1, h2, h3⟩
      · have h0 : i = 0 := by rcases hh with h | h | h <;> first | exact h | exact absurd h ‹_›
        subst h0
        obtain ⟨J, v, h1, h2, _, h3⟩ := C46_in_handler_partial hI hev hl (by simpa using hhd)
        exact ⟨J, v, h1, h2, h3⟩
  refine ⟨v, hd, fun l hl p f => ?_⟩
  have hrs := Eng.reachable_step hr
  have hrun : ∀ m, Eng.run env e (m + 1) = Eng.run env (e.step env) m := fun m => by rw [Nat.add_comm, Eng.run_add]; rfl
  have h1 := C82_kept hrs (List.getElem?_eq_some_iff.mp hJ).1 (k := "_E." ++ t.id) l fun m hml => by
    rintro ⟨o2, t2, e2, r2, td2, hev2, htd2, hw⟩
    rw [← hrun] at hev2
    exact hl (m + 1) (by omega) (by omega) ⟨o2, t2, e2, r2, hev2, writes_error hm hw⟩
  have h2 : attrAt (e.step env) i ("_E." ++ t.id) = some v := by unfold Spec.attrAt; rw [hJ]; exact hv
  unfold Res.resolve
  dsimp only
  unfold Res.errorKey
  rw [if_neg hid, scope_attr (working_none (l := '.' :: t.id.toList) (a := 'E') (by rw [String.toList_append]; rfl) (by decide)), hrun, h1, h2]
  rfl

/-- C83, `$iteration[key]`, `$iteration[value]`, `$iteration[index]`: in every state in which the iteration variable of a task is
(key, value, index) - by C20 these are the states in which the activity of this iteration is called - the references yield its
parts. -/
theorem C83_iteration {c : Eng} {k v : Val} {n : Int} (hc : (c.obj? i o).bind (·.iteration) = some (k, v, n)) (item field : String) :
    resolve path (taskScope c i o) (.iteration item field) =
      path (.obj [("key", k), ("value", v), ("index", .int n)]) ("." ++ item ++ if field = "" then "" else "." ++ field) := by
  cases ho : c.obj? i o with
  | none => rw [ho] at hc; cases hc
  | some ob =>
    rw [ho] at hc
    obtain ⟨I, hI, hob⟩ := Eng.obj?_some ho
    have hit : ob.iteration = some (k, v, n) := hc
    have hs : taskScope c i o "_W.iteration" = some (.obj [("key", k), ("value", v), ("index", .int n)]) := by
      unfold Res.taskScope
      rw [hI]
      dsimp only
      rw [hob]
      dsimp only
      rw [if_pos (by simp [hasWorking, hit])]
      have : Scp.workingName "_W.iteration" = some "iteration" := by decide
      rw [this]
      simp [iterationValue, hit]
    unfold Res.resolve
    dsimp only
    rw [hs]
    dsimp only [Option.bind]
    by_cases hf : field = ""
    · subst hf; simp
    · simp [hf, String.append_assoc]

/-- C83, `$iteration[index]` within a do-while task: in every state in which its index is `n` - by C21 these are the states in which
the activity of this iteration is called and its condition evaluated - the reference yields it. -/
theorem C83_iteration_do_while {c : Eng} {ob : Obj} {n : Nat} (hc : c.obj? i o = some ob) (hit : ob.iteration = none) (hn : ob.dwIndex = some n)
    (item field : String) :
    resolve path (taskScope c i o) (.iteration item field) =
      path (.obj [("index", .int n)]) ("." ++ item ++ if field = "" then "" else "." ++ field) := by
  obtain ⟨I, hI, hob⟩ := Eng.obj?_some hc
  have hs : taskScope c i o "_W.iteration" = some (.obj [("index", .int n)]) := by
    unfold Res.taskScope
    rw [hI]
    dsimp only
    rw [hob]
    dsimp only
    rw [if_pos (by simp [hasWorking, hn])]
    have : Scp.workingName "_W.iteration" = some "iteration" := by decide
    rw [this]
    simp [iterationValue, hit, hn]
  unfold Res.resolve
  dsimp only
  rw [hs]
  dsimp only [Option.bind]
  by_cases hf : field = ""
  · subst hf; simp
  · simp [hf, String.append_assoc]

/-- C83: outside of a loop `$iteration` refers to nothing, also after a retry. The only exception is an attribute that is itself
called `_W.iteration`, for a task that has not been retried. -/
theorem C83_iteration_outside {c : Eng} {ob : Obj} (hc : c.obj? i o = some ob) (hit : ob.iteration = none) (hn : ob.dwIndex = none)
    (hattr : ob.retry ≠ none ∨ attrAt c i "_W.iteration" = none) (item field : String) :
    resolve path (taskScope c i o) (.iteration item field) = none := by
  obtain ⟨I, hI, hob⟩ := Eng.obj?_some hc
  have hs : taskScope c i o "_W.iteration" = none := by
    unfold Res.taskScope
    rw [hI]
    dsimp only
    rw [hob]
    dsimp only
    have hw : Scp.workingName "_W.iteration" = some "iteration" := by decide
    by_cases hh : hasWorking ob
    · rw [if_pos hh, hw]
      simp [iterationValue, hit, hn]
    · rw [if_neg hh]
      rcases hattr with hr | ha
      · exfalso; apply hh
        cases hr' : ob.retry with
        | none => exact absurd hr' hr
        | some x => simp [hasWorking, hr']
      · unfold Spec.attrAt at ha; rw [hI] at ha; exact ha
  unfold Res.resolve
  dsimp only
  rw [hs]
  rfl

/-- C83, `$activity[t]` of a task that accumulates the outputs of its iterations: the entries the reference yields are those from
before, followed by what the steps added, in this order; and if every evaluation of the task finishes an iteration, waits or finds no
further element, one for each finished iteration. -/
theorem C83_accumulated {id : TaskId} (hu : Reserved env ("_A." ++ id)) {e : Eng} (hi : i < e.insts.length) {l : List Val}
    (hl : entries (attrAt e i ("_A." ++ id)) = some l) (p : Nat) :
    (∃ added : Nat → List Val, (∀ m, Contributes env (Eng.run env e m) i id (added m)) ∧
      ∀ n, entries (resolve path (taskScope (Eng.run env e n) i p) (.activity id "")) = some (l ++ (List.range n).flatMap added)) ∧
    ∀ n, (∀ m < n, ∀ o t e' r td, Evaluates env (Eng.run env e m) i o t e' r → t.id = id → (Eng.run env e m).taskDef? i t = some td →
        Accumulating td ∧ (FinishesIteration env td (Eng.run env e m) i o r ∨ NoIteration td (Eng.run env e m) i o r)) →
      ∃ new, entries (resolve path (taskScope (Eng.run env e n) i p) (.activity id "")) = some (l ++ new) ∧
        new.length = finishedIterations env e i id n := by
  have hkey : ∀ c : Eng, resolve path (taskScope c i p) (.activity id "") = attrAt c i ("_A." ++ id) := by
    intro c
    unfold Res.resolve
    dsimp only
    rw [if_neg (fun h => h rfl), scope_attr (working_none (l := '.' :: id.toList) (a := 'A') (by rw [String.toList_append]; rfl) (by decide))]
  simp only [hkey]
  exact ⟨C23_accumulated_partial hu hi hl, fun n hall => C23_one_per_iteration_partial hu hi hl hall⟩

/-! ### The context of the flow -/

/-- What `$flowctx[item]` is meant to yield in a flow instance. -/
def contextItem (env : Env) (name id parentName parentId : String) : String → Option Val
  | "FlowName" => some (.str name)
  | "FlowId" => some (.str id)
  | "ParentFlowName" => some (.str parentName)
  | "ParentFlowId" => some (.str parentId)
  | "AppName" => some env.appName
  | "AppVersion" => some env.appVersion
  | _ => none

theorem contextItem_value {name id pn pi item : String} {v : Val} (h : contextItem env name id pn pi item = some v) :
    contextValue env name id pn pi ("_fctx." ++ item) = some v := by
  unfold contextItem at h
  split at h
  all_goals first | (cases h; rfl) | cases h

theorem flowctx_attr (c : Eng) (p : Nat) (item : String) :
    resolve path (taskScope c i p) (.flowctx item) = attrAt c i ("_fctx." ++ item) := by
  unfold Res.resolve
  dsimp only
  rw [scope_attr (working_none (l := 'c' :: 't' :: 'x' :: '.' :: item.toList) (a := 'f') (by rw [String.toList_append]; rfl) (by decide))]

/-- C83, `$flowctx[item]` of a flow that is started: the reference yields the name and the identifier of the flow instance, and the
name and version of the application, for every task and as long as no activity or mapping writes the attribute; neither the
supplied nor the declared inputs may have its name. A flow that is not called has no parent: the references yield empty names. -/
theorem C83_flowctx {id uri : String} {d : Def} {ins : AMap String Val} (hn : (AMap.keys ins).Nodup) (hd : (AMap.keys d.inputs).Nodup)
    {item : String} {v : Val} (hv : contextItem env d.name id "" "" item = some v) (h1 : AMap.get? ins ("_fctx." ++ item) = none)
    (h2 : AMap.get? d.inputs ("_fctx." ++ item) = none) {l : Nat}
    (hw : ∀ m < l, ¬WrittenBy env (Eng.run env (Eng.init env id uri d ins) m) 0 ("_fctx." ++ item)) (p : Nat) :
    resolve path (taskScope (Eng.run env (Eng.init env id uri d ins) l) 0 p) (.flowctx item) = some v := by
  have hr : Reachable env (Eng.init env id uri d ins) := ⟨id, uri, d, ins, 0, rfl⟩
  obtain ⟨J, base, hJ, hb, hc⟩ := C27_start (env := env) id uri d ins hn hd ("_fctx." ++ item)
  rw [flowctx_attr, C82_kept hr (List.getElem?_eq_some_iff.mp hJ).1 l hw]
  unfold Spec.attrAt
  rw [hJ]
  show AMap.get? J.attrs _ = _
  rw [hb]
  unfold StartValue
  rw [h1, h2]
  exact hc v (contextItem_value hv)

/-- C83, `$flowctx[item]` of a called flow: when a task starts it, the references yield its name and identifier and those of the
flow instance of the calling task, unless a declared input has the name of the attribute. -/
theorem C83_flowctx_subflow {e e' : Eng} {r : Eng.EvalOut} (h : Starts env e i o t e' r) {I : Inst}
    (hI : e.insts[i]? = some I) (htd : e.taskDef? i t = some td) (hkind : td.kind = .basic) (hretry : td.retry = false)
    {uri : String} (hact : td.act = .subflow uri) (hs : Steady env i o) {d : Def} (hdef : env.defs uri = .ok (some d))
    (hd : (AMap.keys d.inputs).Nodup) {item : String} {v : Val}
    (hv : contextItem env d.name (e.id ++ "-" ++ toString (e.subflowCtr + 1)) I.defn.name (e.instID I) item = some v)
    (h2 : "_fctx." ++ item ∉ AMap.keys d.inputs) (p : Nat) :
    resolve path (taskScope e' e.insts.length p) (.flowctx item) = some v := by
  obtain ⟨_, ob, J, _, hJ, _, _, _, _, _, hk⟩ := C27_start_subflow h hI htd hkind hretry hact hs hdef
  obtain ⟨base, hb, hc⟩ := hk hd ("_fctx." ++ item)
  rw [flowctx_attr]
  unfold Spec.attrAt
  rw [hJ]
  show AMap.get? J.attrs _ = _
  rw [hb]
  unfold PassedValue
  rw [if_neg h2]
  exact hc v (contextItem_value hv)

/-! ### Examples -/

-- the context of the flow `s` that the task of `hostFlow` calls; of course no task writes it
example : contextItem startsSub "s" "1-1" hostFlow.name "1" "ParentFlowId" = some (.str "1") := rfl
example : "_fctx.ParentFlowId" ∉ AMap.keys ([("x", .int 1), ("y", .int 2)] : AMap String Val) := by decide
example : resolve path (taskScope (Eng.run startsSub (Eng.init startsSub "1" "u" hostFlow []) 1) 1 0) (.flowctx "FlowId") = some (.str "1-1") := rfl


/-- Fields of objects. -/
def fieldOf (v : Val) (p : String) : Option Val :=
  match v with
  | .obj m => AMap.get? m (String.ofList (p.toList.drop 1))
  | _ => none

-- A fails, its error link leads to H: from then on `$error[A].data` is the data of the error
example : NoErrorWrites failCode := ⟨fun c i o _ _ => by unfold failCode tableEnv; dsimp only; split <;> rfl,
  fun _ _ _ _ _ => rfl, fun _ _ _ _ _ _ h => nomatch h⟩
example : [1, 5, 9].map (fun n => (resolve fieldOf (taskScope (Eng.run failCode (Eng.init failCode "1" "u" guarded []) n) 0 1)
    (.error "A" "data")).bind number?) = [some 7, some 7, some 7] := by decide +kernel

-- within a do-while task, and outside of a loop
example (c : Eng) (h : c.obj? 0 0 = some { task := ⟨false, "A"⟩, dwIndex := some 3 }) :
    (resolve fieldOf (taskScope c 0 0) (.iteration "index" "")).bind number? = some 3 := by
  rw [C83_iteration_do_while h rfl rfl]
  decide +kernel
example (c : Eng) (h : c.obj? 0 0 = some { task := ⟨false, "A"⟩, retry := some 3 }) :
    resolve fieldOf (taskScope c 0 0) (.iteration "index" "") = none :=
  C83_iteration_outside h rfl rfl (.inl (by simp)) _ _

-- within an iterator
example (c : Eng) (h : (c.obj? 0 0).bind (·.iteration) = some (.str "k", .int 5, 2)) :
    (resolve fieldOf (taskScope c 0 0) (.iteration "value" "")).bind number? = some 5 := by
  rw [C83_iteration h]
  decide +kernel

end Flow
