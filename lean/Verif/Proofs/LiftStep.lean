import Verif.Proofs.LiftEval
import Verif.Spec.HandlerRun

/-
The error handler as a flow of its own: steps.
-/

namespace Flow

open Spec

namespace Lift

namespace LE

variable {P : Start} {e f : Eng} {env : Env}

theorem complete (h : LE P e f) : LE P (e.complete 0) (f.complete 0) := by
  obtain ⟨I, J, h1, h2, _⟩ := h.inst0
  unfold Eng.complete
  rw [h1, h2]
  dsimp only
  rw [if_pos rfl, if_pos rfl]
  exact h.modI fun _ _ k => k.completed

theorem go (h : LE P e f) (st : List Frame) : LE P { e with cur := 0, stack := st.map frmE } { f with cur := 0, stack := st } := by
  refine ⟨?_, h.one, rfl, h.items⟩
  rw [h.eq]; rfl

theorem stay (h : LE P e f) (st : List Frame) : LE P { e with stack := st.map frmE } { f with stack := st } := by
  refine ⟨?_, h.one, h.cur, h.items⟩
  rw [h.eq]; rfl

/-- The flow has failed. -/
def Failed (e : Eng) : Prop := flowStatus e 0 = some .failed

theorem failed_set {I : Inst} (h : e.insts[0]? = some I) (g : Inst → Inst) (hg : ∀ J, (g J).status = J.status) :
    Failed ((e.modI 0 (fun J => J.setFlowStatus .failed)).modI 0 g) := by
  unfold Failed flowStatus Eng.modI
  simp only [List.getElem?_modify_eq, h]
  show some (g (I.setFlowStatus .failed)).status = _
  rw [hg]; rfl

theorem globalError (H : Ok P) (h : LE P e f) (g : Inst → Inst) (hg : ∀ J, (g J).handling = J.handling) (err : Err) :
    Failed ((e.modI 0 g).globalError 0 err) := by
  obtain ⟨I, J, h1, h2, h3⟩ := h.inst0
  have h4 : (e.modI 0 g).insts[0]? = some (g I) := by
    unfold Eng.modI
    rw [List.getElem?_modify_eq, h1]; rfl
  have hh : (g I).handling = true := by rw [hg, h3.eq]; exact H.handling
  unfold Eng.globalError
  rw [h4]
  dsimp only
  rw [hh, if_pos rfl]
  unfold Failed flowStatus
  generalize e.modI 0 g = e1 at h4 ⊢
  unfold Eng.modI
  rw [List.getElem?_modify_eq, h4]; rfl

theorem errData (e : Eng) (t : TaskId) (err : Err) : e.appendErrorData 0 t err =
    e.modI 0 (fun I => (I.setValue "_E" (errorObj t err)).setValue ("_E." ++ t) (errorObj t err)) := rfl

theorem taskError (H : Ok P) (h : LE P e f) (b : Nat) (t : TaskRef) (err : Err) :
    LE P (e.taskError 0 (P.sh b) (refE t) err) (f.taskError 0 b t err) ∨ Failed (e.taskError 0 (P.sh b) (refE t) err) := by
  obtain ⟨I, J, h1, h2, h3⟩ := h.inst0
  unfold Eng.taskError
  rw [h1, h2]
  dsimp only
  have h4 := h3.errorTask H b t
  revert h4
  generalize I.errorTask (P.sh b) (refE t) = u
  generalize J.errorTask b t = v
  obtain ⟨u1, u2⟩ := u
  obtain ⟨v1, v2⟩ := v
  intro h4
  obtain ⟨h4, h5⟩ := h4
  have h4 : LI P u1 v1 := h4
  have h5 : u2 = v2.map (List.map entE) := h5
  subst h5
  cases v2 with
  | some es => exact .inl ((h.set (h4.setValueE t.id (errorObj t.id err))).go [.enter es, .release t])
  | none =>
    refine .inr ?_
    dsimp only [Option.map_none]
    have hh : I.handling = true := by rw [h3.eq]; exact H.handling
    rw [hh, if_pos rfl, if_pos rfl]
    have h5 : (e.modI 0 (fun _ => u1)).insts[0]? = some u1 := by
      unfold Eng.modI
      rw [List.getElem?_modify_eq, h1]; rfl
    exact failed_set h5 (fun I => (I.setValue "_E" (errorObj t.id err)).setValue ("_E." ++ t.id) (errorObj t.id err)) fun _ => rfl

theorem finishTask (h : LE P e f) (t : TaskRef) (notify : Bool) (es : List TaskEntry) (rest : List Frame) :
    LE P (e.finishTask 0 (refE t) notify (es.map entE) (rest.map frmE)) (f.finishTask 0 t notify es rest) := by
  obtain ⟨I, J, h1, h2, h3⟩ := h.inst0
  have hf : I.force = J.force := by rw [h3.eq]; rfl
  unfold Eng.finishTask
  rw [h1, h2]
  dsimp only
  rw [h3.allDone, hf]
  split
  · exact h.complete.go (.release t :: rest)
  · exact h.go (.enter es :: .release t :: rest)

theorem taskDone (H : Ok P) (h : LE P e f) (b : Nat) (t : TaskRef) :
    LE P (Eng.taskDone env e 0 (P.sh b) (refE t)) (Eng.taskDone (envE P env) f 0 b t) ∨ Failed (Eng.taskDone env e 0 (P.sh b) (refE t)) := by
  obtain ⟨I, J, h1, h2, h3⟩ := h.inst0
  unfold Eng.taskDone
  rw [h1, h2]
  dsimp only
  have hl : (envE P env).link f 0 = env.link e 0 := by rw [h.eq]; rfl
  have hp : (envE P env).prio = env.prio := rfl
  rw [hl, hp]
  have h4 := h3.doneTask H b env.prio (env.link e 0) t
  revert h4
  generalize Inst.doneTask env.prio (env.link e 0) I (P.sh b) (refE t) = u
  generalize Inst.doneTask env.prio (env.link e 0) J b t = v
  obtain ⟨u1, u2⟩ := u
  obtain ⟨v1, v2⟩ := v
  intro h4
  obtain ⟨h4, h5⟩ := h4
  have h4 : LI P u1 v1 := h4
  have h5 : u2 = v2.map (List.map entE) := h5
  subst h5
  have h6 : LE P (e.modI 0 (fun _ => u1)) (f.modI 0 (fun _ => v1)) := h.set h4
  cases v2 with
  | error m => exact .inr (h6.globalError H (fun I => (I.setValue "_E" _).setValue ("_E." ++ t.id) _) (fun _ => rfl) _)
  | ok es =>
    refine .inl ?_
    have ht := h3.toLinks H t
    dsimp only [Except.map]
    rw [ht]
    exact h6.finishTask t _ es []

theorem taskSkipped (H : Ok P) (h : LE P e f) (b : Nat) (rest : List Frame) :
    LE P (e.taskSkipped 0 (P.sh b) (rest.map frmE)) (f.taskSkipped 0 b rest) := by
  obtain ⟨I, J, h1, h2, h3⟩ := h.inst0
  unfold Eng.taskSkipped
  rw [h1, h2]
  dsimp only
  rw [h3.obj]
  cases J.objs[b]? with
  | none => exact h.stay rest
  | some ob =>
    dsimp only [Option.map_some]
    have h6 := h3.skipTask H b ob.task
    have ht : I.defn.toLinks (objE ob).task = J.defn.toLinks ob.task := h3.toLinks H ob.task
    rw [ht]
    revert h6
    have hr : (objE ob).task = refE ob.task := rfl
    rw [hr]
    generalize I.skipTask (P.sh b) (refE ob.task) = u
    generalize J.skipTask b ob.task = v
    obtain ⟨u1, u2⟩ := u
    obtain ⟨v1, v2⟩ := v
    intro h6
    obtain ⟨h6, h7⟩ := h6
    have h6 : LI P u1 v1 := h6
    have h7 : u2 = v2.map entE := h7
    subst h7
    exact (h.set h6).finishTask ob.task _ v2 rest

theorem handleResult (H : Ok P) (h : LE P e f) (b : Nat) (t : TaskRef) (name : String) (x : Eng.EvalOut) (hx : isPanic x = false) :
    LE P (Eng.handleResult env e 0 (P.sh b) (refE t) name x) (Eng.handleResult (envE P env) f 0 b t name x) ∨
      Failed (Eng.handleResult env e 0 (P.sh b) (refE t) name x) := by
  cases x with
  | err err => exact h.taskError H b t err
  | panic m => cases hx
  | res r =>
    cases r with
    | done => exact h.taskDone H b t
    | skip => exact h.taskDone H b t
    | wait => exact .inl (h.setStatus b _)
    | fail => exact .inl (h.setStatus b _)
    | again => exact .inl (h.schedule b)

theorem exec (H : Ok P) (h : LE P e f) (b : Nat) (hp : (outcome env e 0 (P.sh b)).all fun p => !isPanic p.2) :
    LE P (Eng.exec env e 0 (P.sh b)) (Eng.exec (envE P env) f 0 b) ∨ Failed (Eng.exec env e 0 (P.sh b)) := by
  unfold outcome at hp
  unfold Eng.exec
  rw [h.objEq] at hp ⊢
  generalize f.obj? 0 b = x at hp ⊢
  cases x with
  | none => exact .inl h
  | some ob =>
    dsimp only [Option.map_some] at hp ⊢
    have ht : e.taskDef? 0 (objE ob).task = f.taskDef? 0 ob.task := h.taskDef H ob.task
    rw [ht] at hp ⊢
    generalize f.taskDef? 0 ob.task = y at hp ⊢
    cases y with
    | none => exact .inl h
    | some td =>
      dsimp only at hp ⊢
      have h3 := h.postKind (env := env) H b td
      have h4 := h.evalKind (env := env) H b td
      have hs : (objE ob).status = ob.status := rfl
      rw [hs] at hp ⊢
      have hpost : ob.status = .waiting → isPanic (Eng.postKind env e 0 (P.sh b) td).2 = false := fun hw => by
        rw [if_pos hw] at hp
        simpa using hp
      have heval : ob.status ≠ .waiting → ob.status ≠ .skipped → ob.status ≠ .done → isPanic (Eng.evalKind env e 0 (P.sh b) td).2 = false := fun h1 h2 h3 => by
        rw [if_neg h1, if_neg (fun hc => hc.elim h2 h3)] at hp
        simpa using hp
      cases hst : ob.status with
      | waiting => dsimp only; rw [← h3.2]; exact h3.1.handleResult H b ob.task _ _ (hpost hst)
      | skipped => exact .inl h
      | done => exact .inl h
      | _ =>
        dsimp only
        rw [← h4.2]
        exact h4.1.handleResult H b ob.task _ _ (heval (by rw [hst]; decide) (by rw [hst]; decide) (by rw [hst]; decide))

theorem enterEntry (H : Ok P) (h : LE P e f) (x : TaskEntry) (xs : List TaskEntry) (rest : List Frame) :
    LE P (Eng.enterEntry env e (entE x) (xs.map entE) (rest.map frmE)) (Eng.enterEntry (envE P env) f x xs rest) := by
  obtain ⟨I, J, h1, h2, h3⟩ := h.inst0
  have hc : e.cur = 0 := by rw [h.eq]; exact h.cur
  obtain ⟨h4, h6, h7⟩ := h3.enterTask H x.task
  have h8 := h.set h4
  have hx : (entE x).task = refE x.task := rfl
  unfold Eng.enterEntry
  rw [hc, h.cur, h1, h2]
  dsimp only
  rw [hx, h6, h7]
  have hso : (envE P env).settingsOk (f.modI 0 fun _ => (J.enterTask x.task).1) 0 (J.enterTask x.task).2.1 =
    env.settingsOk (e.modI 0 fun _ => (I.enterTask (refE x.task)).1) 0 (P.sh (J.enterTask x.task).2.1) := by rw [h8.eq]; rfl
  rw [hso]
  cases (J.enterTask x.task).2.2 with
  | notReady => exact h8.stay (.enter xs :: rest)
  | eval =>
    dsimp only
    split
    · exact (h8.schedule _).stay (.enter xs :: rest)
    · exact h8.stay rest
  | skip => exact h8.taskSkipped H _ (.enter xs :: rest)

theorem getElem?_map_item (l : List WorkItem) (k : Nat) : (l.map (itemE P))[k]? = (l[k]?).map (itemE P) := List.getElem?_map ..

theorem map_erase (g : WorkItem → WorkItem) (l : List WorkItem) (k : Nat) : (l.eraseIdx k).map g = (l.map g).eraseIdx k := by
  induction l generalizing k with
  | nil => rfl
  | cons a l ih =>
    cases k with
    | zero => rfl
    | succ k => show g a :: (l.eraseIdx k).map g = g a :: (l.map g).eraseIdx k; rw [ih]

theorem doStep (H : Ok P) (h : LE P e f) (hs : f.stack = []) (hp : panics env e = false) :
    LE P (Eng.doStep env e) (Eng.doStep (envE P env) f) ∨ Failed (Eng.doStep env e) := by
  obtain ⟨I, J, h1, h2, h3⟩ := h.inst0
  have hpick : (envE P env).pick f = env.pick e := by rw [h.eq]; rfl
  have hq : e.queue = f.queue.map (itemE P) := by rw [h.eq]; rfl
  have hlen : e.queue.length = f.queue.length := by rw [hq, List.length_map]
  have hst : I.status = J.status := by rw [h3.eq]; rfl
  have hse : e.stack = [] := by
    rw [h.eq]
    show f.stack.map frmE = []
    rw [hs]; rfl
  have hstep : LE P { e with stepID := e.stepID + 1 } { f with stepID := f.stepID + 1 } := by
    refine ⟨?_, h.one, h.cur, h.items⟩
    rw [h.eq]; rfl
  unfold Eng.doStep
  rw [h1, h2]
  dsimp only
  rw [hst, hpick]
  by_cases ha : J.status = .active
  · rw [if_pos ha, if_pos ha]
    unfold panics next at hp
    have hfl : flowStatus e 0 = some .active := by unfold flowStatus; rw [h1, ← ha, ← hst]; rfl
    rw [if_pos ⟨hse, hfl⟩] at hp
    have hk : e.queue[env.pick e % e.queue.length]? = (f.queue[env.pick e % f.queue.length]?).map (itemE P) := by
      rw [hlen, hq]; exact getElem?_map_item _ _
    rw [hk] at hp ⊢
    cases hw : f.queue[env.pick e % f.queue.length]? with
    | none => exact .inl hstep
    | some w =>
      rw [hw] at hp
      dsimp only [Option.map_some]
      have hi : w.inst = 0 := h.items w (List.mem_of_getElem? hw)
      have hi' : (itemE P w).inst = 0 := hi
      have ho : (itemE P w).obj = P.sh w.obj := rfl
      rw [Option.map_some, Option.any_some, hi', ho] at hp
      rw [hi', ho, hi]
      refine exec H (e := { e with stepID := e.stepID + 1, queue := e.queue.eraseIdx (env.pick e % e.queue.length), qlog := .removed (itemE P w) :: e.qlog })
        (f := { f with stepID := f.stepID + 1, queue := f.queue.eraseIdx (env.pick e % f.queue.length), qlog := .removed w :: f.qlog }) ?_ w.obj ?_
      · refine ⟨?_, h.one, h.cur, fun w' hw' => h.items w' (List.mem_of_mem_eraseIdx hw')⟩
        generalize hkk : env.pick e % f.queue.length = k
        rw [hlen, hkk, hq, h.eq]
        unfold engE
        dsimp only
        rw [map_erase]; rfl
      · unfold afterPop at hp
        generalize outcome env _ 0 (P.sh w.obj) = oc at hp ⊢
        cases oc with
        | none => rfl
        | some p => simpa using hp
  · rw [if_neg ha, if_neg ha]; exact .inl hstep

theorem step (H : Ok P) (h : LE P e f) (hp : panics env e = false) :
    LE P (Eng.step env e) (Eng.step (envE P env) f) ∨ Failed (Eng.step env e) := by
  have hs : e.stack = f.stack.map frmE := by rw [h.eq]; rfl
  have hc : e.cur = 0 := by rw [h.eq]; exact h.cur
  unfold Eng.step
  cases hst : f.stack with
  | nil => rw [hst] at hs; rw [hs]; exact h.doStep H hst hp
  | cons fr rest =>
    rw [hst] at hs
    cases fr with
    | enter es =>
      cases es with
      | nil => rw [hs]; exact .inl (h.stay rest)
      | cons x xs => rw [hs]; exact .inl (h.enterEntry H x xs rest)
    | release t =>
      rw [hs]
      dsimp only [List.map_cons, frmE]
      rw [hc, h.cur]
      exact .inl ((h.modI fun _ _ k => k.release H t).stay rest)

end LE

end Lift

end Flow
