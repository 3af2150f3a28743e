import Verif.Spec.Launch
import Verif.Props.Results
import Verif.Props.Serial

/-
C85: what a run is started with. C86: the requests of the tester. C87: detached calls.
-/

namespace Flow
open Launch Spec

variable {env : Env}

/-- The supplied value of an input. -/
def suppliedBy (inputs : AMap String Arg) (k : String) : Option Val :=
  match inputs.get? k with
  | some (.val v) => if k = "_run_options" then none else some v
  | _ => none

theorem suppliedBy_iff (inputs : AMap String Arg) (k : String) (v : Val) : suppliedBy inputs k = some v ↔ Supplied inputs k v := by
  unfold suppliedBy Supplied
  split
  · rename_i u hu
    split
    · rename_i hk; exact ⟨(fun h => nomatch h), fun h => absurd hk h.1⟩
    · rename_i hk; rw [hu]; exact ⟨fun h => ⟨hk, by rw [Option.some.inj h]⟩, fun h => by cases h.2; rfl⟩
  · rename_i hn; exact ⟨(fun h => nomatch h), fun h => absurd h.2 (hn v)⟩

def valueOf (p : String × Arg) : Option (String × Val) :=
  match p.2 with
  | .val v => some (p.1, v)
  | .options _ => none

theorem filterMap_keys (m : AMap String Arg) : ∀ k ∈ AMap.keys (m.filterMap valueOf), k ∈ AMap.keys m := by
  intro k hk
  obtain ⟨p, hp, rfl⟩ := List.mem_map.1 hk
  obtain ⟨q, hq, hv⟩ := List.mem_filterMap.1 hp
  unfold valueOf at hv
  split at hv
  · cases hv; exact List.mem_map.2 ⟨q, hq, rfl⟩
  · cases hv

theorem filterMap_nodup (m : AMap String Arg) (h : (AMap.keys m).Nodup) : (AMap.keys (m.filterMap valueOf)).Nodup := by
  induction m with
  | nil => exact .nil
  | cons p m ih =>
    have hc : (AMap.keys (p :: m)) = p.1 :: AMap.keys m := rfl
    rw [hc, List.nodup_cons] at h
    rw [List.filterMap_cons]
    split
    · exact ih h.2
    · rename_i q hq
      have : q.1 = p.1 := by unfold valueOf at hq; split at hq <;> cases hq; rfl
      show (q.1 :: AMap.keys _).Nodup
      rw [List.nodup_cons, this]
      exact ⟨fun hm => h.1 (filterMap_keys _ _ hm), ih h.2⟩

theorem get?_of_not_mem (m : AMap String Val) {k : String} (h : k ∉ AMap.keys m) : AMap.get? m k = none := get?_none_of_not_mem h

theorem filterMap_get (m : AMap String Arg) (h : (AMap.keys m).Nodup) (k : String) :
    AMap.get? (m.filterMap valueOf) k = match AMap.get? m k with
      | some (.val v) => some v
      | _ => none := by
  induction m with
  | nil => rfl
  | cons p m ih =>
    obtain ⟨p1, p2⟩ := p
    have hc : (AMap.keys ((p1, p2) :: m)) = p1 :: AMap.keys m := rfl
    rw [hc, List.nodup_cons] at h
    have hg : AMap.get? ((p1, p2) :: m) k = if p1 = k then some p2 else AMap.get? m k := rfl
    rw [hg]
    cases p2 with
    | val v =>
      have : ((p1, Arg.val v) :: m).filterMap valueOf = (p1, v) :: m.filterMap valueOf := rfl
      rw [this]
      show (if p1 = k then some v else AMap.get? (m.filterMap valueOf) k) = _
      split
      · rfl
      · exact ih h.2
    | options o =>
      have : ((p1, Arg.options o) :: m).filterMap valueOf = m.filterMap valueOf := rfl
      rw [this]
      by_cases hk : p1 = k
      · subst hk
        rw [if_pos rfl]
        exact get?_of_not_mem _ (fun hm => h.1 (filterMap_keys _ _ hm))
      · rw [if_neg hk]; exact ih h.2

theorem del_nodup (m : AMap String Arg) (k : String) (h : (AMap.keys m).Nodup) : (AMap.keys (m.del k)).Nodup :=
  (List.filter_sublist.map _).nodup h

theorem values_eq (m : AMap String Arg) : values m = (m.del "_run_options").filterMap valueOf := rfl

theorem values_nodup (m : AMap String Arg) (h : (AMap.keys m).Nodup) : (AMap.keys (values m)).Nodup := by
  rw [values_eq]; exact filterMap_nodup _ (del_nodup _ _ h)

theorem values_get (m : AMap String Arg) (h : (AMap.keys m).Nodup) (k : String) : AMap.get? (values m) k = suppliedBy m k := by
  rw [values_eq, filterMap_get _ (del_nodup _ _ h), AMap.get?_del]
  unfold suppliedBy
  by_cases hk : k = "_run_options"
  · subst hk
    rw [if_pos rfl]
    cases AMap.get? m "_run_options" with
    | none => rfl
    | some a => cases a <;> rfl
  · rw [if_neg (fun h => hk h.symm)]
    cases AMap.get? m k with
    | none => rfl
    | some a =>
      cases a with
      | val v => dsimp only; rw [if_neg hk]
      | options o => rfl

/-! ### C85 -/

theorem uriOf_asked (a : Action) (o : Options) : Asked a o (uriOf a o) := by
  unfold Asked uriOf
  by_cases h : o.uri = ""
  · rw [if_pos h]; exact .inr ⟨h, rfl⟩
  · rw [if_neg h]; exact .inl ⟨h, rfl⟩

theorem idOf_named (w : World) (o : Options) : Named w o (w.idOf o) := by
  unfold Named World.idOf
  by_cases h : o.preservedId = ""
  · rw [if_pos h]; exact .inr ⟨h, rfl⟩
  · rw [if_neg h]; exact .inl ⟨h, rfl⟩

theorem fixReturnData_same (I : Inst) : I.fixReturnData.defn = I.defn ∧ I.fixReturnData.uri = I.uri ∧ I.fixReturnData.attrs = I.attrs ∧
    I.fixReturnData.subflowId = I.subflowId ∧ I.fixReturnData.host = I.host := by
  unfold Inst.fixReturnData
  split
  · exact ⟨rfl, rfl, rfl, rfl, rfl⟩
  · split <;> exact ⟨rfl, rfl, rfl, rfl, rfl⟩

/-- The instance that is started has the definition `d` and the given address and identifier, and its attributes are the supplied
inputs, the declared defaults, the event and the context. -/
theorem started_inst (w : World) (id uri : String) (d : Def) (ins : AMap String Val) (hn : (AMap.keys ins).Nodup) (hd : (AMap.keys d.inputs).Nodup) :
    ∃ J, (Eng.startInstance env (((if w.recorder then (Eng.new id uri d).modI 0 Inst.fixReturnData else Eng.new id uri d)).modI 0
        (fun I => { I with attrs := w.addEvent I.attrs })) 0 ins).insts[0]? = some J ∧ J.defn = d ∧ J.status = .active ∧ J.host = none ∧
      ∀ k, ∃ other, J.attrs.get? k = FirstValue (fun k => AMap.get? ins k) d.inputs w.event other k ∧
        ∀ v, contextValue env d.name id "" "" k = some v → other = some v := by
  obtain ⟨e, he, hid, I, hI, h1, h2, h3, h4, h5⟩ : ∃ e : Eng, e = ((if w.recorder then (Eng.new id uri d).modI 0 Inst.fixReturnData else Eng.new id uri d)).modI 0
        (fun I => { I with attrs := w.addEvent I.attrs }) ∧ e.id = id ∧ ∃ I : Inst, e.insts[0]? = some I ∧ I.defn = d ∧ I.uri = uri ∧
          I.attrs = w.addEvent [] ∧ I.subflowId = 0 ∧ I.host = none := by
    refine ⟨_, rfl, ?_, ?_⟩
    · split <;> rfl
    · split
      · refine ⟨_, rfl, ?_⟩
        have := fixReturnData_same { defn := d, uri := uri }
        exact ⟨this.1, this.2.1, by dsimp only; rw [this.2.2.1], this.2.2.2.1, this.2.2.2.2⟩
      · exact ⟨_, rfl, rfl, rfl, rfl, rfl, rfl⟩
  rw [← he]
  obtain ⟨J, hJ, hC⟩ := Eng.startInstance_calm (env := env) e 0 ins hI
  refine ⟨J, hJ, hC.defn.trans h1, hC.status, hC.host.trans h5, fun k => ?_⟩
  have hp : e.parentOf I = none := by unfold Eng.parentOf; rw [h5]
  have hi : e.instID I = id := by unfold Eng.instID; rw [h4, if_neg (by omega), hid]
  refine ⟨(I.attrs.update [("_fctx.FlowName", .str I.defn.name), ("_fctx.FlowId", .str (e.instID I)), ("_fctx.AppName", env.appName),
     ("_fctx.AppVersion", env.appVersion), ("_fctx.TraceId", .str ""), ("_fctx.SpanId", .str ""),
     ("_fctx.ParentFlowName", .str ""), ("_fctx.ParentFlowId", .str "")]).get? k, ?_, ?_⟩
  · rw [hC.attrs]
    show (e.startAttrs env I (e.parentOf I) ins).get? k = _
    unfold Eng.startAttrs
    dsimp only
    rw [hp, AMap.get?_update _ _ hn, h1, AMap.get?_update _ _ hd]
    unfold FirstValue
    dsimp only
    cases AMap.get? ins k with
    | some v => cases AMap.get? d.inputs k <;> rfl
    | none =>
      cases AMap.get? d.inputs k with
      | some v => rfl
      | none =>
        show AMap.get? _ k = if k = "event.id" then _ else _
        by_cases hk : k = "event.id"
        · subst hk
          rw [if_pos rfl, AMap.get?_update _ _ (by simp [AMap.keys]), h3]
          unfold World.addEvent
          split <;> rfl
        · rw [if_neg hk]; rfl
  · intro v hv
    rw [AMap.get?_update _ _ (by simp [AMap.keys]), h1, hi]
    unfold contextValue at hv
    repeat' split at hv
    all_goals first | (subst_vars; cases hv; rfl) | cases hv


/-- What is known about a started run, whatever the operation. -/
def Options.Kept (w : World) (o : Options) (inputs : AMap String Arg) {α : Type} (id : String) (l : Launched α) : Prop :=
  l.returnId = o.returnId ∧ l.detach = o.detach ∧
    (∀ rec, l.recorded = some rec → rec.id = id ∧ rec.originalId = o.originalId ∧ ∀ k v, rec.inputs.get? k = some v ↔ Supplied inputs k v) ∧
    (l.recorded.isSome = w.recorder) ∧ (0 < o.initStep → l.count + 1 = o.initStep) ∧ (o.initStep ≤ 0 → l.count = 0)

theorem kept_of (w : World) (o : Options) (inputs : AMap String Arg) (hn : (AMap.keys inputs).Nodup) {α : Type} (id : String) (x : α) :
    Options.Kept w o inputs id (w.launched o id (values inputs) x) := by
  refine ⟨rfl, rfl, fun rec hrec => ?_, ?_, fun h => ?_, fun h => ?_⟩
  · unfold World.launched at hrec
    dsimp only at hrec
    split at hrec
    · cases hrec
      exact ⟨rfl, rfl, fun k v => by dsimp only; rw [values_get _ hn]; exact suppliedBy_iff inputs k v⟩
    · cases hrec
  · unfold World.launched
    dsimp only
    split
    · rename_i h; rw [h]; rfl
    · rename_i h; rw [Bool.not_eq_true] at h; rw [h]; rfl
  · show (if 0 < o.initStep then o.initStep - 1 else 0) + 1 = o.initStep
    rw [if_pos h]; omega
  · show (if 0 < o.initStep then o.initStep - 1 else 0) = 0
    rw [if_neg (by omega)]

theorem run_op (w : World) (a : Action) (inputs : AMap String Arg) (hu : uriOf a (optionsOf inputs) ≠ "") :
    w.run env a inputs = if (optionsOf inputs).op = 0 then w.start env a (optionsOf inputs) (values inputs)
      else if (optionsOf inputs).op = 1 then w.resume (optionsOf inputs) (values inputs)
      else if (optionsOf inputs).op = 2 then w.restart (optionsOf inputs) (values inputs) else .panic := by
  unfold World.run; dsimp only; rw [if_neg hu]

theorem run_uri {w : World} {a : Action} {inputs : AMap String Arg} (h : ∀ e, w.run env a inputs ≠ .error e) : uriOf a (optionsOf inputs) ≠ "" := by
  intro hu
  unfold World.run at h
  dsimp only at h
  rw [if_pos hu] at h
  exact h _ rfl

theorem newAction_find {w : World} {uri : String} {a : Action} (h : ForFlow w uri a) :
    a.uri = uri ∧ ((isResource uri = true ∧ a.res.isSome ∧ a.res = w.resources uri) ∨ (isResource uri = false ∧ a.res = none)) := by
  unfold ForFlow World.newAction at h
  split at h
  · cases h
  · cases h
  · rename_i d res hf
    cases h
    refine ⟨rfl, ?_⟩
    unfold World.find at hf
    split at hf
    · rename_i hr
      split at hf
      · rename_i d' hd
        cases hf
        exact .inl ⟨hr, rfl, by rw [hd]; rfl⟩
      · cases hf
    · rename_i hr
      rw [Bool.not_eq_true] at hr
      split at hf
      · cases hf
      · cases hf; exact .inr ⟨hr, rfl⟩

/-- The definition that is used is the one of the flow asked for, if the options name no flow, the flow of the action, or one that is
not a resource while the action is not for a resource. -/
theorem startDef_find {w : World} {uri : String} {a : Action} (ha : ForFlow w uri a) {o : Options}
    (ho : o.uri = "" ∨ o.uri = uri ∨ (isResource uri = false ∧ isResource o.uri = false)) {d : Def}
    (h : w.startDef a (uriOf a o) = .ok (some d)) : ∃ b, w.find (uriOf a o) = .ok (some d, b) := by
  obtain ⟨hu, hr⟩ := newAction_find ha
  have huri : uriOf a o = uri ∨ (isResource uri = false ∧ isResource (uriOf a o) = false) := by
    unfold uriOf
    rcases ho with ho | ho | ho
    · rw [if_pos ho]; exact .inl hu
    · by_cases he : o.uri = ""
      · rw [if_pos he]; exact .inl hu
      · rw [if_neg he]; exact .inl ho
    · by_cases he : o.uri = ""
      · rw [if_pos he]; exact .inl hu
      · rw [if_neg he]; exact .inr ho
  unfold World.startDef at h
  unfold World.find
  rcases hr with ⟨h1, h2, h3⟩ | ⟨h1, h2⟩
  · rcases huri with hq | hq
    · rw [hq, if_pos h1]
      cases hd : a.res with
      | none => rw [hd] at h2; cases h2
      | some d' =>
        rw [hd] at h h3
        cases h
        rw [← h3]
        exact ⟨_, rfl⟩
    · rw [h1] at hq; cases hq.1
  · rw [h2] at h
    dsimp only at h
    have : isResource (uriOf a o) = false := by
      rcases huri with hq | hq
      · rw [hq]; exact h1
      · exact hq.2
    rw [if_neg (by rw [this]; simp), h]
    exact ⟨_, rfl⟩

theorem start_found {w : World} {uri : String} {a : Action} (ha : ForFlow w uri a) {inputs : AMap String Arg} (hn : (AMap.keys inputs).Nodup)
    (hop : (optionsOf inputs).op = 0) {l : Launched Eng} (h : w.run env a inputs = .started l)
    (ho : (optionsOf inputs).uri = "" ∨ (optionsOf inputs).uri = uri ∨ (isResource uri = false ∧ isResource (optionsOf inputs).uri = false)) :
    ∃ asked d b J, Asked a (optionsOf inputs) asked ∧ w.find asked = .ok (some d, b) ∧ w.modelOk d = true ∧
      Named w (optionsOf inputs) l.inst.id ∧ Options.Kept w (optionsOf inputs) inputs l.inst.id l ∧
      l.inst.insts[0]? = some J ∧ J.defn = d ∧ J.status = .active ∧ J.host = none ∧
      ((AMap.keys d.inputs).Nodup → ∀ k, ∃ other, J.attrs.get? k = FirstValue (suppliedBy inputs) d.inputs w.event other k ∧
        ∀ v, contextValue env d.name l.inst.id "" "" k = some v → other = some v) := by
  have hu := run_uri (env := env) (w := w) (a := a) (inputs := inputs) (fun e he => by rw [h] at he; cases he)
  rw [run_op w a inputs hu, if_pos hop] at h
  unfold World.start at h
  split at h
  · cases h
  · cases h
  · rename_i d hd
    obtain ⟨b, hb⟩ := startDef_find ha ho hd
    split at h
    · rename_i hm
      dsimp only at h
      cases h
      have hid : ∀ x : Eng, x.id = w.idOf (optionsOf inputs) → (Eng.startInstance env x 0 (values inputs)).id = w.idOf (optionsOf inputs) := by
        intro x hx; rw [← hx]; exact (Eng.StartFrame.startInstance (env := env) 0 x (values inputs)).id
      have hid' : (w.launched (optionsOf inputs) (w.idOf (optionsOf inputs)) (values inputs) (Eng.startInstance env
          ((if w.recorder then (Eng.new (w.idOf (optionsOf inputs)) (uriOf a (optionsOf inputs)) d).modI 0 Inst.fixReturnData
            else Eng.new (w.idOf (optionsOf inputs)) (uriOf a (optionsOf inputs)) d).modI 0
              (fun I => { I with attrs := w.addEvent I.attrs })) 0 (values inputs))).inst.id = w.idOf (optionsOf inputs) := by
        apply hid; split <;> rfl
      by_cases hnd : (AMap.keys d.inputs).Nodup
      · obtain ⟨J, hJ, h1, h2, hh, h3⟩ := started_inst (env := env) w (w.idOf (optionsOf inputs)) (uriOf a (optionsOf inputs)) d (values inputs) (values_nodup _ hn) hnd
        refine ⟨_, d, b, J, uriOf_asked a _, hb, hm, by rw [hid']; exact idOf_named w _, by rw [hid']; exact kept_of w _ inputs hn _ _, hJ, h1, h2, hh, fun _ k => ?_⟩
        obtain ⟨other, h4, h5⟩ := h3 k
        refine ⟨other, ?_, by rw [hid']; exact h5⟩
        rw [h4]
        unfold FirstValue
        dsimp only
        rw [values_get _ hn]
      · obtain ⟨I, hI⟩ : ∃ I : Inst, (((if w.recorder then (Eng.new (w.idOf (optionsOf inputs)) (uriOf a (optionsOf inputs)) d).modI 0 Inst.fixReturnData
            else Eng.new (w.idOf (optionsOf inputs)) (uriOf a (optionsOf inputs)) d).modI 0
              (fun I => { I with attrs := w.addEvent I.attrs }))).insts[0]? = some I ∧ I.defn = d ∧ I.host = none := by
          split
          · exact ⟨_, rfl, (fixReturnData_same { defn := d, uri := _ }).1, (fixReturnData_same { defn := d, uri := _ }).2.2.2.2⟩
          · exact ⟨_, rfl, rfl, rfl⟩
        obtain ⟨J, hJ, hC⟩ := Eng.startInstance_calm (env := env) _ 0 (values inputs) hI.1
        exact ⟨_, d, b, J, uriOf_asked a _, hb, hm, by rw [hid']; exact idOf_named w _, by rw [hid']; exact kept_of w _ inputs hn _ _, hJ,
          hC.defn.trans hI.2.1, hC.status, hC.host.trans hI.2.2, fun hc => absurd hc hnd⟩
    · cases h

theorem starts_found {w : World} {uri : String} {a : Action} (ha : ForFlow w uri a) {inputs : AMap String Arg} (hop : (optionsOf inputs).op = 0)
    (ho : (optionsOf inputs).uri = "" ∨ (optionsOf inputs).uri = uri ∨ (isResource uri = false ∧ isResource (optionsOf inputs).uri = false))
    {asked : String} (hask : Asked a (optionsOf inputs) asked) (hne : asked ≠ "") {d : Def} {b : Bool} (hd : w.find asked = .ok (some d, b))
    (hm : w.modelOk d = true) : ∃ l, w.run env a inputs = .started l := by
  have huri : uriOf a (optionsOf inputs) = asked := by
    unfold uriOf
    rcases hask with h | h
    · rw [if_neg h.1, h.2]
    · rw [if_pos h.1, h.2]
  have hq : isResource asked = isResource uri ∧ (isResource uri = true → asked = uri) := by
    have hu := (newAction_find ha).1
    rcases hask with h | h
    · rcases ho with ho | ho | ho
      · exact absurd ho h.1
      · rw [h.2, ho]; exact ⟨rfl, fun _ => rfl⟩
      · rw [h.2, ho.1, ho.2]; exact ⟨rfl, (fun h => nomatch h)⟩
    · rw [h.2, hu]; exact ⟨rfl, fun _ => rfl⟩
  have hdef : w.startDef a asked = .ok (some d) := by
    unfold World.startDef
    unfold World.find at hd
    rcases (newAction_find ha).2 with ⟨h1, h2, h3⟩ | ⟨h1, h2⟩
    · rw [if_pos (by rw [hq.1]; exact h1), hq.2 h1, ← h3] at hd
      cases hr : a.res with
      | none => rw [hr] at h2; cases h2
      | some d' => rw [hr] at hd; cases hd; rfl
    · rw [h2]
      rw [if_neg (by rw [hq.1, h1]; simp)] at hd
      dsimp only
      split at hd
      · cases hd
      · rename_i d' hd'; cases hd; exact hd'
  rw [run_op w a inputs (by rw [huri]; exact hne), if_pos hop]
  unfold World.start
  rw [huri, hdef]
  dsimp only
  rw [if_pos hm]
  exact ⟨_, rfl⟩

theorem isResource_iff (uri : String) : isResource uri = true ↔ IsResource uri := by unfold isResource IsResource; exact List.isPrefixOf_iff_prefix

theorem isResource_false {uri : String} (h : ¬ IsResource uri) : isResource uri = false := by
  rw [← Bool.not_eq_true, isResource_iff]; exact h

theorem find_iff {w : World} {uri : String} {d : Def} : (∃ b, w.find uri = .ok (some d, b)) ↔ Known w uri d := by
  unfold World.find Known
  by_cases h : isResource uri
  · rw [if_pos h]
    have hr := (isResource_iff uri).1 h
    cases hd : w.resources uri with
    | none => exact ⟨fun ⟨b, hb⟩ => (by cases hb), fun hk => by rcases hk with ⟨_, hk⟩ | ⟨hk, _⟩ <;> first | (cases hk; done) | exact absurd hr hk⟩
    | some d' =>
      refine ⟨fun ⟨b, hb⟩ => (by cases hb; exact .inl ⟨hr, rfl⟩), fun hk => ?_⟩
      rcases hk with ⟨_, hk⟩ | ⟨hk, _⟩
      · cases hk; exact ⟨_, rfl⟩
      · exact absurd hr hk
  · rw [if_neg h]
    have hr : ¬ IsResource uri := fun hr => h ((isResource_iff uri).2 hr)
    cases hd : w.flows uri with
    | error e => exact ⟨fun ⟨b, hb⟩ => (by cases hb), fun hk => by rcases hk with ⟨hk, _⟩ | ⟨_, hk⟩ <;> first | (cases hk; done) | exact absurd hk hr⟩
    | ok d' =>
      refine ⟨fun ⟨b, hb⟩ => (by cases hb; exact .inr ⟨hr, rfl⟩), fun hk => ?_⟩
      rcases hk with ⟨hk, _⟩ | ⟨_, hk⟩
      · exact absurd hk hr
      · cases hk; exact ⟨_, rfl⟩

/-- C85, new instances: the run that is started executes an instance with the requested identifier, whose attributes are the
supplied inputs (never the run options), else the declared defaults, else event and context; the recorder is told exactly these
inputs. Missing: its flow is the requested one only if the options name no other flow, or neither flow is a resource
(`C85_negation_flow`, `C85_negation_resource`). -/
theorem C85_start_partial {w : World} {uri : String} {a : Action} (ha : ForFlow w uri a) {inputs : AMap String Arg} (hn : (AMap.keys inputs).Nodup)
    (hop : (optionsOf inputs).op = 0) {l : Launched Eng} (h : w.run env a inputs = .started l)
    (ho : (optionsOf inputs).uri = "" ∨ (optionsOf inputs).uri = uri ∨ (¬ IsResource uri ∧ ¬ IsResource (optionsOf inputs).uri)) :
    ∃ asked d J, Asked a (optionsOf inputs) asked ∧ Known w asked d ∧ w.modelOk d = true ∧
      Named w (optionsOf inputs) l.inst.id ∧ Options.Kept w (optionsOf inputs) inputs l.inst.id l ∧
      l.inst.insts[0]? = some J ∧ J.defn = d ∧ J.status = .active ∧ J.host = none ∧
      ((AMap.keys d.inputs).Nodup → ∀ k, ∃ other, J.attrs.get? k = FirstValue (suppliedBy inputs) d.inputs w.event other k ∧
        ∀ v, contextValue env d.name l.inst.id "" "" k = some v → other = some v) := by
  obtain ⟨asked, d, b, J, h1, h2, h3⟩ := start_found ha hn hop h (ho.imp_right (Or.imp_right (And.imp isResource_false isResource_false)))
  exact ⟨asked, d, J, h1, find_iff.1 ⟨b, h2⟩, h3⟩

/-- C85, new instances: the run is started if the flow that is asked for exists and its model is known. -/
theorem C85_starts {w : World} {uri : String} {a : Action} (ha : ForFlow w uri a) {inputs : AMap String Arg} (hop : (optionsOf inputs).op = 0)
    (ho : (optionsOf inputs).uri = "" ∨ (optionsOf inputs).uri = uri ∨ (¬ IsResource uri ∧ ¬ IsResource (optionsOf inputs).uri))
    {asked : String} (hask : Asked a (optionsOf inputs) asked) (hne : asked ≠ "") {d : Def} (hd : Known w asked d)
    (hm : w.modelOk d = true) : ∃ l, w.run env a inputs = .started l := by
  obtain ⟨b, hb⟩ := find_iff.2 hd
  exact starts_found ha hop (ho.imp_right (Or.imp_right (And.imp isResource_false isResource_false))) hask hne hb hm

/-- What a restart keeps of the saved instance. -/
theorem restart_keeps {defs : String → Except Err (Option Def)} {id : String} {k : Int} {r r' : Restored} {ok : Bool}
    (h : r.restart defs ok id k = .ok r') : r'.id = id ∧ r'.top.status = .active ∧ r'.top.uri = r.top.uri ∧ r'.top.attrs = r.top.attrs := by
  have hrot : ∀ x y : Restored, x.rotate = some y → y.id = x.id ∧ y.top.status = x.top.status ∧ y.top.uri = x.top.uri ∧ y.top.attrs = x.top.attrs := by
    intro x y hxy
    unfold Restored.rotate at hxy
    split at hxy
    · cases hxy; exact ⟨rfl, rfl, rfl, rfl⟩
    · split at hxy
      · cases hxy; exact ⟨rfl, rfl, rfl, rfl⟩
      · split at hxy
        · cases hxy
        · cases hxy; exact ⟨rfl, rfl, rfl, rfl⟩
  have h1 := restart_ok h
  split at h1
  · cases hx : ({ r with id := id, top := { r.top with status := .active } } : Restored).rotate with
    | none => rw [hx] at h1; cases h1
    | some x =>
      rw [hx] at h1
      have a1 := hrot _ _ hx
      have a2 := hrot _ _ h1
      exact ⟨a2.1.trans a1.1, a2.2.1.trans a1.2.1, a2.2.2.1.trans a1.2.2.1, a2.2.2.2.trans a1.2.2.2⟩
  · cases h1; exact ⟨rfl, rfl, rfl, rfl⟩

/-- C85, restart: the saved instance continues under the requested identifier; its attributes are those it had when it was saved,
except the supplied ones and the event. -/
theorem C85_restart {w : World} {a : Action} {inputs : AMap String Arg} (hn : (AMap.keys inputs).Nodup)
    (hop : (optionsOf inputs).op = 2) {l : Launched Restored} (h : w.run env a inputs = .restarted l) :
    ∃ r, (optionsOf inputs).state = some (.restored r) ∧ Named w (optionsOf inputs) l.inst.id ∧
      Options.Kept w (optionsOf inputs) inputs l.inst.id l ∧ l.inst.top.status = .active ∧ l.inst.top.uri = r.top.uri ∧
      ∀ k, l.inst.top.attrs.get? k = (suppliedBy inputs k).or
        (if k = "event.id" ∧ w.event ≠ "" then some (.str w.event) else r.top.attrs.get? k) := by
  have hu := run_uri (env := env) (w := w) (a := a) (inputs := inputs) (fun e he => by rw [h] at he; cases he)
  rw [run_op w a inputs hu, if_neg (by rw [hop]; decide), if_neg (by rw [hop]; decide), if_pos hop] at h
  unfold World.restart at h
  split at h
  · rename_i r hr
    split at h
    · cases h
    · cases h
    · rename_i r1 h1
      cases h
      have hk := restart_keeps h1
      refine ⟨r, hr, ?_, ?_, hk.2.1, hk.2.2.1, fun k => ?_⟩
      · show Named w _ r1.id
        rw [hk.1]; exact idOf_named w _
      · show Options.Kept w _ inputs r1.id _
        rw [hk.1]; exact kept_of w _ inputs hn _ _
      · show AMap.get? (AMap.update _ (values inputs)) k = _
        rw [AMap.get?_update _ _ (values_nodup _ hn), values_get _ hn, hk.2.2.2]
        unfold World.addEvent
        by_cases he : w.event = ""
        · rw [if_pos he, if_neg (fun hc => hc.2 he)]
          cases suppliedBy inputs k <;> rfl
        · rw [if_neg he, AMap.get?_set]
          by_cases hk' : k = "event.id"
          · rw [if_pos hk'.symm, if_pos ⟨hk', he⟩]; cases suppliedBy inputs k <;> rfl
          · rw [if_neg (fun hc => hk' hc.symm), if_neg (fun hc => hk' hc.1)]; cases suppliedBy inputs k <;> rfl
  · cases h
  · cases h

/-- C85, missing state: a restart or resume without saved instance is an error; nothing is started or recorded. -/
theorem C85_needs_state {w : World} {a : Action} {inputs : AMap String Arg}
    (hop : (optionsOf inputs).op = 1 ∨ (optionsOf inputs).op = 2) (hs : (optionsOf inputs).state = none) :
    ∃ e, w.run env a inputs = .error e := by
  by_cases hu : uriOf a (optionsOf inputs) = ""
  · refine ⟨.plain "cannot run flow, flowURI not specified", ?_⟩
    unfold World.run; dsimp only; rw [if_pos hu]
  · rw [run_op w a inputs hu]
    rcases hop with hop | hop
    · rw [if_neg (by rw [hop]; decide), if_pos hop]
      unfold World.resume; rw [hs]; exact ⟨_, rfl⟩
    · rw [if_neg (by rw [hop]; decide), if_neg (by rw [hop]; decide), if_pos hop]
      unfold World.restart; rw [hs]; exact ⟨_, rfl⟩

/-- C85, restart of a flow that is not known, or whose model is not: an error; nothing is started or recorded. -/
theorem C85_restart_unknown {w : World} {a : Action} {inputs : AMap String Arg} (hop : (optionsOf inputs).op = 2)
    {r : Restored} (hs : (optionsOf inputs).state = some (.restored r)) (hd : ∀ d, Known w r.top.uri d → w.modelOk d = false) :
    ∃ e, w.run env a inputs = .error e := by
  by_cases hu : uriOf a (optionsOf inputs) = ""
  · refine ⟨.plain "cannot run flow, flowURI not specified", ?_⟩
    unfold World.run; dsimp only; rw [if_pos hu]
  · rw [run_op w a inputs hu, if_neg (by rw [hop]; decide), if_neg (by rw [hop]; decide), if_pos hop]
    unfold World.restart; rw [hs]; dsimp only
    have key : r.restart (fun u => (w.find u).map (·.1)) (((w.find r.top.uri).toOption.bind (·.1)).elim false w.modelOk)
        (w.idOf (optionsOf inputs)) ((optionsOf inputs).initStep - 1) = .error := by
      unfold Restored.restart
      cases hf : w.find r.top.uri with
      | error e => dsimp only; rw [hf]; rfl
      | ok p =>
        obtain ⟨od, b⟩ := p
        cases od with
        | none => dsimp only; rw [hf]; rfl
        | some d =>
          have := hd d (find_iff.1 ⟨b, hf⟩)
          dsimp only; rw [hf]
          exact if_neg (fun hc => Bool.false_ne_true (this.symm.trans hc))
    rw [key]
    exact ⟨_, rfl⟩

/-- C85, resume of an instance that is still in memory: it continues under its own identifier with the same tasks, links and pending
work; of its attributes only the supplied ones and the event change. -/
theorem C85_resume {w : World} {a : Action} {inputs : AMap String Arg} (hn : (AMap.keys inputs).Nodup)
    (hop : (optionsOf inputs).op = 1) {e : Eng} (hs : (optionsOf inputs).state = some (.live e)) (hu : uriOf a (optionsOf inputs) ≠ "")
    {I : Inst} (hI : e.insts[0]? = some I) :
    ∃ l J, w.run env a inputs = .started l ∧ l.inst.id = e.id ∧ Options.Kept w (optionsOf inputs) inputs e.id l ∧ l.inst.queue = e.queue ∧
      l.inst.insts[0]? = some J ∧ { J with attrs := I.attrs } = I ∧
      (∀ k, J.attrs.get? k = (suppliedBy inputs k).or (if k = "event.id" ∧ w.event ≠ "" then some (.str w.event) else I.attrs.get? k)) ∧
      ∀ i, i ≠ 0 → l.inst.insts[i]? = e.insts[i]? := by
  rw [run_op w a inputs hu, if_neg (by rw [hop]; decide), if_pos hop]
  unfold World.resume
  rw [hs]
  refine ⟨_, _, rfl, rfl, kept_of w _ inputs hn _ _, rfl, Eng.modI_self hI _, rfl, fun k => ?_, fun i hi => ?_⟩
  · show AMap.get? (AMap.update _ (values inputs)) k = _
    rw [AMap.get?_update _ _ (values_nodup _ hn), values_get _ hn]
    unfold World.addEvent
    by_cases he : w.event = ""
    · rw [if_pos he, if_neg (fun hc => hc.2 he)]
      cases suppliedBy inputs k <;> rfl
    · rw [if_neg he, AMap.get?_set]
      by_cases hk' : k = "event.id"
      · rw [if_pos hk'.symm, if_pos ⟨hk', he⟩]; cases suppliedBy inputs k <;> rfl
      · rw [if_neg (fun hc => hk' hc.symm), if_neg (fun hc => hk' hc.1)]; cases suppliedBy inputs k <;> rfl
  · show (e.modI 0 _).insts[i]? = _
    rw [Eng.modI_getElem?, if_neg (fun h => hi h.symm)]

-- the hypotheses hold for a flow that is not a resource, with options that keep the identifier
/-- A flow with one task. -/
def justTask (t : TaskId) : Def := { name := "f", main := ⟨[tk t], []⟩ }

/-- Two flows known to the flow manager and two resources. -/
def fourFlows : World :=
  { flows := fun u => if u = "file://a" then .ok (some (justTask "A")) else if u = "file://b" then .ok (some (justTask "B")) else .ok none
    resources := fun u => if u = "res://flow:a" then some (justTask "RA") else if u = "res://flow:b" then some (justTask "RB") else none
    modelOk := fun _ => true
    nextId := "77"
    event := "ev"
    recorder := true }

/-- The tasks of the flow that an outcome executes, and the identifier of the instance. -/
def launchedFlow : Outcome → Option (String × String × List String)
  | .started l => (l.inst.insts[0]?).map (fun J => (l.inst.id, J.uri, J.defn.main.tasks.map (·.id)))
  | _ => none

/-- Does the outcome say that the flow cannot be run? -/
def Launch.Outcome.failed : Outcome → Bool
  | .error _ => true
  | _ => false

def keepId : AMap String Arg := [("x", .val (.int 1)), ("_run_options", .options { preservedId := "5", uri := "file://b" })]
example : ForFlow fourFlows "file://a" ⟨"file://a", none⟩ := rfl
example : (AMap.keys keepId).Nodup ∧ isResource "file://a" = false ∧ isResource (optionsOf keepId).uri = false := by decide
example : launchedFlow (fourFlows.run plainEnv ⟨"file://a", none⟩ keepId) = some ("5", "file://b", ["B"]) := by decide
example : launchedFlow (fourFlows.run plainEnv ⟨"file://a", none⟩ [("x", .val (.int 1))]) = some ("77", "file://a", ["A"]) := by decide
example : ∃ a, ForFlow fourFlows "res://flow:a" a ∧ launchedFlow (fourFlows.run plainEnv a []) = some ("77", "res://flow:a", ["RA"]) :=
  ⟨_, rfl, by decide⟩

/-- The saved state of three pending tasks. -/
def savedThree : Option Restored := (threeTasks.marshal).bind Ser.unmarshal
example : ∃ r, savedThree = some r ∧ ∃ l, ({ fourFlows with flows := fun _ => .ok (some { name := "f", main := ⟨[tk "A", tk "B", tk "C"], []⟩ }) } : World).run plainEnv ⟨"u", none⟩
    [("x", .val (.int 1)), ("_run_options", .options { op := 2, state := some (.restored r) })] = .restarted l := ⟨_, rfl, _, rfl⟩
example : uriOf ⟨"u", none⟩ (optionsOf [("_run_options", .options { op := 1, state := some (.live threeTasks) })]) ≠ "" := by decide

/-- C85 does not hold for the flow named in the options if the action was created for a resource: the flow of the action is
executed under the address of the requested flow. -/
theorem C85_negation_flow : ∃ a, ForFlow fourFlows "res://flow:a" a ∧
    (fourFlows.find "res://flow:b").toOption.bind (·.1.map (fun d => d.main.tasks.map (·.id))) = some ["RB"] ∧
    launchedFlow (fourFlows.run plainEnv a [("_run_options", .options { uri := "res://flow:b" })]) = some ("77", "res://flow:b", ["RA"]) :=
  ⟨_, rfl, by decide, by decide⟩

/-- C85 does not hold if the options name a resource and the action was created for another flow: the resource exists but is not
found. -/
theorem C85_negation_resource : ∃ a, ForFlow fourFlows "file://a" a ∧
    (fourFlows.find "res://flow:b").toOption.bind (·.1.map (fun d => d.main.tasks.map (·.id))) = some ["RB"] ∧
    (fourFlows.run plainEnv a [("_run_options", .options { uri := "res://flow:b" })]).failed = true := ⟨_, rfl, by decide, by decide⟩

/-- C85 does not hold for the resume of an instance that was read from a document: whatever it contains, the run panics. -/
theorem C85_negation_resume {w : World} {a : Action} {inputs : AMap String Arg} (hop : (optionsOf inputs).op = 1) {r : Restored}
    (hs : (optionsOf inputs).state = some (.restored r)) (hu : uriOf a (optionsOf inputs) ≠ "") : w.run env a inputs = .panic := by
  rw [run_op w a inputs hu, if_neg (by rw [hop]; decide), if_pos hop]
  unfold World.resume; rw [hs]

/-- C85 does not hold for operations that do not exist: the run panics instead of reporting an error. -/
theorem C85_negation_op {w : World} {a : Action} {inputs : AMap String Arg} (h0 : (optionsOf inputs).op ≠ 0) (h1 : (optionsOf inputs).op ≠ 1)
    (h2 : (optionsOf inputs).op ≠ 2) (hu : uriOf a (optionsOf inputs) ≠ "") : w.run env a inputs = .panic := by
  rw [run_op w a inputs hu, if_neg h0, if_neg h1, if_neg h2]

/-! ### C86 -/

theorem request_options (data : AMap String Val) (o : Options) : optionsOf (request data o) = o := by
  unfold optionsOf request
  rw [AMap.get?_set_self]

theorem map_keys (data : AMap String Val) : AMap.keys (data.map (fun p => (p.1, Arg.val p.2))) = AMap.keys data := by
  unfold AMap.keys; rw [List.map_map]; rfl

theorem map_get (data : AMap String Val) (k : String) :
    AMap.get? (data.map (fun p => (p.1, Arg.val p.2))) k = (AMap.get? data k).map Arg.val := by
  induction data with
  | nil => rfl
  | cons p m ih =>
    rw [List.map_cons]
    show (if p.1 = k then some (Arg.val p.2) else AMap.get? _ k) = Option.map Arg.val (if p.1 = k then some p.2 else AMap.get? m k)
    split
    · rfl
    · exact ih

theorem request_supplied (data : AMap String Val) (o : Options) (k : String) :
    suppliedBy (request data o) k = if k = "_run_options" then none else AMap.get? data k := by
  unfold suppliedBy request
  rw [AMap.get?_set]
  by_cases hk : k = "_run_options"
  · rw [if_pos hk.symm, if_pos hk]
  · rw [if_neg (fun h => hk h.symm), if_neg hk, map_get]
    cases AMap.get? data k with
    | none => rfl
    | some v => dsimp only [Option.map]; rw [if_neg hk]

theorem request_nodup {data : AMap String Val} (h : (AMap.keys data).Nodup) (o : Options) : (AMap.keys (request data o)).Nodup := by
  unfold request
  exact AMap.nodup_keys_set (by rw [map_keys]; exact h) _ _

/-- C86, start: a flow started through the tester is the requested one, a resource or not; it gets a new identifier, which is
reported, and the attributes of the request, or its data if it has no attributes. Missing: both at once (`C86_negation_data`). -/
theorem C86_start_partial {w : World} {uri : String} {attrs data : AMap String Val} (ha : (AMap.keys attrs).Nodup) (hd : (AMap.keys data).Nodup)
    {l : Launched Eng} (h : w.testStart env uri attrs data = .started l) :
    ∃ d J, Known w uri d ∧ l.inst.id = w.nextId ∧ l.returnId = true ∧ l.detach = false ∧ l.inst.insts[0]? = some J ∧
      J.defn = d ∧ J.status = .active ∧
      ((AMap.keys d.inputs).Nodup → ∀ k, k ≠ "_run_options" → ∃ other,
        J.attrs.get? k = FirstValue (fun k => AMap.get? (if attrs = [] then data else attrs) k) d.inputs w.event other k ∧
        ∀ v, contextValue env d.name l.inst.id "" "" k = some v → other = some v) := by
  unfold World.testStart at h
  split at h
  · cases h
  · rename_i a hnew
    have hsel : (if 0 < attrs.length then attrs else data) = if attrs = [] then data else attrs := by
      cases attrs with
      | nil => rfl
      | cons p m => rw [if_pos (by simp), if_neg (by simp)]
    rw [hsel] at h
    generalize hx : (if attrs = [] then data else attrs) = x at h
    have hxn : (AMap.keys x).Nodup := by rw [← hx]; split <;> assumption
    have hu := newAction_find (w := w) (uri := uri) (a := a) hnew
    obtain ⟨asked, d, b, J, h1, h2, _, h3, h4, h5, h6, h7, _, h8⟩ := start_found (env := env) (uri := uri) hnew (request_nodup hxn _)
      (by rw [request_options]) h (by rw [request_options]; exact .inr (.inl rfl))
    rw [request_options] at h1 h3 h4
    have hask : asked = uri := by
      rcases h1 with h1 | h1
      · exact h1.2
      · rw [h1.2]; exact hu.1
    subst hask
    refine ⟨d, J, find_iff.1 ⟨b, h2⟩, ?_, h4.1, h4.2.1, h5, h6, h7, fun hnd k hk => ?_⟩
    · rcases h3 with h3 | h3
      · exact absurd rfl h3.1
      · exact h3.2
    · obtain ⟨other, h9, h10⟩ := h8 hnd k
      refine ⟨other, ?_, h10⟩
      rw [h9]
      unfold FirstValue
      rw [request_supplied, if_neg hk]

/-- C86, restart: the tester restarts a saved instance under a new identifier with the data of the request; pending work, its order
and the status of every task are kept. -/
theorem C86_restart {w : World} {r : Restored} {data : AMap String Val} (hd : (AMap.keys data).Nodup) {l : Launched Restored}
    (h : w.testRestart env r data = .restarted l) :
    l.inst.id = w.nextId ∧ l.returnId = true ∧ l.inst.queue = r.queue ∧ (∀ t, l.inst.top.tasks.get? t = r.top.tasks.get? t) ∧
      (∀ k, k ≠ "_run_options" → l.inst.top.attrs.get? k = (AMap.get? data k).or
        (if k = "event.id" ∧ w.event ≠ "" then some (.str w.event) else r.top.attrs.get? k)) := by
  unfold World.testRestart at h
  split at h
  · cases h
  · rename_i a hnew
    have hu := run_uri (env := env) (w := w) (a := a) (inputs := request data { op := 2, returnId := true, uri := r.top.uri, state := some (.restored r) })
      (fun e he => by rw [h] at he; cases he)
    have h0 := C85_restart (env := env) (request_nodup hd _) (by rw [request_options]) h
    obtain ⟨r', hr', h3, h4, _, _, h5⟩ := h0
    rw [request_options] at hr' h3 h4
    cases hr'
    rw [run_op w a _ hu, request_options, if_neg (show (2 : Int) ≠ 0 by decide), if_neg (show (2 : Int) ≠ 1 by decide), if_pos rfl] at h
    unfold World.restart at h
    dsimp only at h
    split at h
    · cases h
    · cases h
    · rename_i r1 h1
      cases h
      have hun := C33_unnamed (by omega) h1
      refine ⟨?_, h4.1, hun.1, hun.2.1, fun k hk => ?_⟩
      · rcases h3 with h3 | h3
        · exact absurd rfl h3.1
        · exact h3.2
      · rw [h5 k, request_supplied, if_neg hk]

def tested : Outcome := fourFlows.testStart plainEnv "res://flow:a" [("x", .int 1)] []
example : launchedFlow tested = some ("77", "res://flow:a", ["RA"]) := by decide
example : ∃ r, savedThree = some r ∧ ∃ l, ({ fourFlows with flows := fun _ => .ok (some { name := "f", main := ⟨[tk "A", tk "B", tk "C"], []⟩ }) } : World).testRestart plainEnv r
    [("x", .int 1)] = .restarted l := ⟨_, rfl, _, rfl⟩

/-- Attribute of the flow that an outcome executes. -/
def launchedAttr (k : String) : Outcome → Option Int
  | .started l => ((l.inst.insts[0]?).bind (fun J => J.attrs.get? k)).bind number?
  | _ => none

/-- C86 does not hold for a request with attributes and data: the data are ignored. -/
theorem C86_negation_data : launchedAttr "y" (fourFlows.testStart plainEnv "file://a" [] [("y", .int 2)]) = some 2 ∧
    launchedAttr "y" (fourFlows.testStart plainEnv "file://a" [("x", .int 1)] [("y", .int 2)]) = none := by decide

/-- C86 does not hold for the resume of a saved instance: whatever the request, nothing is executed. -/
theorem C86_negation_resume (w : World) (r : Restored) (data : AMap String Val) :
    (∃ e, w.testResume env r data = .error e) ∨ w.testResume env r data = .panic := by
  unfold World.testResume
  split
  · exact .inl ⟨_, rfl⟩
  · rename_i a hnew
    by_cases hu : uriOf a (optionsOf (request data { op := 1, returnId := true, uri := r.top.uri, state := some (.restored r) })) = ""
    · left
      refine ⟨.plain "cannot run flow, flowURI not specified", ?_⟩
      unfold World.run; dsimp only; rw [if_pos hu]
    · right
      exact C85_negation_resume (by rw [request_options]) (r := r) (by rw [request_options]) hu

/-! ### C87 -/

theorem eventOf_caller (e : Eng) (i : Nat) : CallerEvent ((e.insts[i]?).bind (fun I => I.attrs.get? "event.id"))
    ((e.insts[0]?).bind (fun I => I.attrs.get? "event.id")) (eventOf e i) := by
  unfold eventOf CallerEvent
  generalize (e.insts[i]?).bind (fun I => AMap.get? I.attrs "event.id") = own
  generalize (e.insts[0]?).bind (fun I => AMap.get? I.attrs "event.id") = top
  cases own with
  | some v => cases v <;> simp
  | none =>
    cases top with
    | some v => cases v <;> simp
    | none => simp

/-- C87, inputs: a detached call starts a new top-level instance of the called flow with a new identifier; its declared inputs are
those of the task, nil where the task has none; it knows the event of the caller; the caller is not kept waiting. -/
theorem C87_started {w : World} {e : Eng} {i o : Nat} {uri : String} {l : Launched Eng}
    (hn : ∀ d, Known w uri d → (AMap.keys d.inputs).Nodup) (h : w.detached env e i o uri = .started l) :
    ∃ d J event, Known w uri d ∧
      CallerEvent ((e.insts[i]?).bind (fun I => I.attrs.get? "event.id")) ((e.insts[0]?).bind (fun I => I.attrs.get? "event.id")) event ∧
      l.inst.id = w.nextId ∧ l.detach = true ∧ l.returnId = false ∧ l.inst.insts[0]? = some J ∧
      J.defn = d ∧ J.status = .active ∧ J.host = none ∧
      (∀ k, k ≠ "_run_options" → ∃ other,
        J.attrs.get? k = PassedValue (((e.obj? i o).map (·.inputs)).getD []) d.inputs
          (if k = "event.id" then (if event = "" then none else some (.str event)) else other) k ∧
        ∀ v, contextValue env d.name l.inst.id "" "" k = some v → other = some v) := by
  unfold World.detached at h
  split at h
  · cases h
  · rename_i a hnew
    split at h
    · rename_i d b hf
      have hu := newAction_find (w := w) (uri := uri) (a := a) hnew
      generalize hins : (((e.obj? i o).map (·.inputs)).getD []) = ins at h ⊢
      have hnd := hn d (find_iff.1 ⟨b, hf⟩)
      have hkeys : AMap.keys (Eng.subflowInputs d ins) = AMap.keys d.inputs := by
        unfold Eng.subflowInputs AMap.keys; rw [List.map_map]; rfl
      obtain ⟨asked, d', b', J, h1, h2, _, h3, h4, h5, h6, h7, h8, h9⟩ := start_found (env := env)
        (w := { w with event := eventOf e i }) (uri := uri) hnew (request_nodup (by rw [hkeys]; exact hnd) _)
        (by rw [request_options]) h (by rw [request_options]; exact .inl rfl)
      rw [request_options] at h1 h3 h4
      have hask : asked = uri := by
        rcases h1 with h1 | h1
        · exact absurd rfl h1.1
        · rw [h1.2]; exact hu.1
      subst hask
      have hdd : w.find asked = .ok (some d', b') := h2
      rw [hf] at hdd
      cases hdd
      refine ⟨d, J, eventOf e i, find_iff.1 ⟨b, hf⟩, eventOf_caller e i, ?_, h4.2.1, h4.1, h5, h6, h7, h8, fun k hk => ?_⟩
      · rcases h3 with h3 | h3
        · exact absurd rfl h3.1
        · exact h3.2
      · obtain ⟨other, h10, h11⟩ := h9 hnd k
        refine ⟨other, ?_, h11⟩
        rw [h10]
        unfold FirstValue PassedValue
        rw [request_supplied, if_neg hk, subflowInputs_get]
        by_cases hm : k ∈ AMap.keys d.inputs
        · rw [if_pos hm, if_pos hm]; rfl
        · rw [if_neg hm, if_neg hm, get?_none_of_not_mem hm]; rfl
    · cases h

/-- C87, the task: a detached call never keeps the task waiting. The task is done at once if the called flow exists and its model is
known, whatever becomes of that flow; else it fails with an error. -/
theorem C87_result (w : World) (e : Eng) (i o : Nat) (uri : String) (hu : uri ≠ "") :
    (w.detachedResult env e i o uri = .done ↔ ∃ d, Known w uri d ∧ w.modelOk d = true) ∧
      (w.detachedResult env e i o uri = .done ∨ ∃ err, w.detachedResult env e i o uri = .err err) := by
  have hk : (∃ d, Known w uri d ∧ w.modelOk d = true) ↔ ∃ d b, w.find uri = .ok (some d, b) ∧ w.modelOk d = true :=
    ⟨fun ⟨d, h, hm⟩ => by obtain ⟨b, hb⟩ := find_iff.2 h; exact ⟨d, b, hb, hm⟩, fun ⟨d, b, h, hm⟩ => ⟨d, find_iff.1 ⟨b, h⟩, hm⟩⟩
  rw [hk]
  unfold World.detachedResult World.detached
  cases hnew : w.newAction uri with
  | error err =>
    refine ⟨⟨(fun h => nomatch h), fun ⟨d, b, hf, _⟩ => ?_⟩, .inr ⟨err, rfl⟩⟩
    unfold World.newAction at hnew
    rw [hf] at hnew
    cases hnew
  | ok a =>
    have hf := newAction_find (w := w) hnew
    have hfd : ∃ d b, w.find uri = .ok (some d, b) := by
      unfold World.newAction at hnew
      split at hnew
      · cases hnew
      · cases hnew
      · rename_i d b h; exact ⟨d, b, h⟩
    obtain ⟨d, b, hfd⟩ := hfd
    rw [hfd]
    dsimp only
    generalize Eng.subflowInputs d (((e.obj? i o).map (·.inputs)).getD []) = x
    have huri : uriOf a { detach := true } = uri := hf.1
    have hdef : w.startDef a uri = .ok (some d) := by
      unfold World.startDef
      rcases hf.2 with ⟨h1, h2, h3⟩ | ⟨h1, h2⟩
      · unfold World.find at hfd
        rw [if_pos h1, ← h3] at hfd
        cases hr : a.res with
        | none => rw [hr] at h2; cases h2
        | some d' => rw [hr] at hfd; cases hfd; rfl
      · rw [h2]
        unfold World.find at hfd
        rw [if_neg (by rw [h1]; simp)] at hfd
        dsimp only
        split at hfd
        · cases hfd
        · rename_i d' hd; cases hfd; exact hd
    rw [run_op _ a _ (by rw [request_options, huri]; exact hu), request_options, if_pos rfl]
    unfold World.start
    rw [huri]
    have hdef' : ({ w with event := eventOf e i } : World).startDef a uri = .ok (some d) := hdef
    rw [hdef']
    dsimp only
    cases hm : w.modelOk d with
    | true => rw [if_pos rfl]; exact ⟨⟨fun _ => ⟨d, b, rfl, hm⟩, fun _ => rfl⟩, .inl rfl⟩
    | false =>
      rw [if_neg (by simp)]
      refine ⟨⟨(fun h => nomatch h), fun ⟨d', b', h1, h2⟩ => ?_⟩, .inr ⟨_, rfl⟩⟩
      cases h1
      rw [hm] at h2; cases h2

/-- A flow with two declared inputs; the task that calls it supplies one. -/
def detachWorld : World :=
  { flows := fun _ => .ok none
    resources := fun u => if u = "res://flow:s" then some { name := "s", main := ⟨[tk "X"], []⟩, inputs := [("x", .int 1), ("y", .int 2)] } else none
    modelOk := fun _ => true
    nextId := "78" }

/-- The calling flow; it was started by the event `ev`. -/
def detachCaller : Eng :=
  (Eng.init plainEnv "1" "u" (justTask "A") [("event.id", .str "ev")]).modI 0 (fun I => { I with objs := I.objs.map (fun ob => { ob with inputs := [("x", .int 7)] }) })

example : ∀ d, Known detachWorld "res://flow:s" d → (AMap.keys d.inputs).Nodup := by
  intro d h
  obtain ⟨b, h⟩ := find_iff.2 h
  cases h; decide
example : ∃ l, detachWorld.detached plainEnv detachCaller 0 0 "res://flow:s" = .started l := ⟨_, rfl⟩
example : launchedFlow (detachWorld.detached plainEnv detachCaller 0 0 "res://flow:s") = some ("78", "res://flow:s", ["X"]) ∧
    launchedAttr "x" (detachWorld.detached plainEnv detachCaller 0 0 "res://flow:s") = some 7 ∧ eventOf detachCaller 0 = "ev" := by decide

/-- Is the value nil? -/
def isNull : Val → Bool
  | .null => true
  | _ => false

/-- The attribute of the flow that an outcome executes is nil. -/
def launchedNull (k : String) : Outcome → Bool
  | .started l => (((l.inst.insts[0]?).bind (fun J => J.attrs.get? k)).map isNull).getD false
  | _ => false

/-- C87 does not hold for the declared defaults of the called flow: `y` has the default 2 if the flow is started directly, nil if it
is called by a task that has no input `y`. -/
theorem C87_negation_default : launchedAttr "y" (detachWorld.testStart plainEnv "res://flow:s" [("x", .int 7)] []) = some 2 ∧
    launchedNull "y" (detachWorld.detached plainEnv detachCaller 0 0 "res://flow:s") = true := by decide

end Flow
