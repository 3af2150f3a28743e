import Verif.Proofs.Ahead
import Verif.Proofs.GraphInst
import Verif.Props.Errors

/-
C107: once an error handler has started, the failed flow is not continued; and only work that is pending, and what follows from it, is
ever executed.
-/

namespace Flow

open Spec

variable {env : Env} {e : Eng}

/-- C107: from every reachable state on, a flow instance executes only tasks that lie ahead of this state: whatever the environment does,
and however many steps follow. -/
theorem C107_ahead (hr : Reachable env e) {k n : Nat} {I J : Inst} (hI : e.insts[k]? = some I) (hJ : (e.run env n).insts[k]? = some J)
    {tr : List Ev} (htr : J.trace = tr ++ I.trace) {ev : Ev} (hev : ev ∈ tr) {t : TaskRef} (ht : ran ev = some t) : Ahead e k t := by
  obtain ⟨J', h1, h2⟩ := ((Eng.within_ahead hr).run (env := env) n).on.insts k I hI
  rw [hJ] at h1; cases h1
  obtain ⟨new, h3, h4⟩ := h2.trace
  rw [htr] at h3
  cases List.append_cancel_right h3
  exact h4 ev hev t ht

/-- C107: instances that are started later are started by tasks that lie ahead. -/
theorem C107_ahead_calls (hr : Reachable env e) {k n : Nat} {J : Inst} (hk : e.insts.length ≤ k) (hJ : (e.run env n).insts[k]? = some J) :
    ∃ hi ho ob, J.host = some (hi, ho) ∧ (e.run env n).obj? hi ho = some ob ∧ Ahead e hi ob.task :=
  ((Eng.within_ahead hr).run (env := env) n).on.fresh k J hJ (List.getElem?_eq_none hk)

/-- A task of the error handler, or the end of one of its links, has this identifier. -/
def UsesId (g : Graph) (u : TaskId) : Prop := (∃ td ∈ g.tasks, td.id = u) ∨ ∃ l ∈ g.links, l.dst = u

/-- The state in which the error handler of instance `i` is entered. -/
theorem handler_entered {e e' : Eng} {i o : Nat} {t : TaskRef} {err : Err} {I : Inst} {g : Graph}
    (hI : e.insts[i]? = some I) (h : Evaluates env e i o t e' (.err err))
    (hl : ¬ hasErrorLink I.defn t) (hg : I.defn.eh = some g) (hh : I.handling = false) :
    ∃ J, (e.step env).insts[i]? = some J ∧ J.defn = I.defn ∧ J.host = I.host ∧ J.tasks = if i = 0 then [] else I.tasks := by
  obtain ⟨⟨name, hstep⟩, hstk, _, hin⟩ := Eng.evaluates_step h
  obtain ⟨I', ob, hI', hob, hobt, hd, hhd, hst, hho, htk, _, _, heh⟩ := hin I hI
  have hnh : I'.handling = false := hhd.trans hh
  rw [← hd] at hl hg
  have hc := Calm.errorTask I' o t
  have ho := Onward.errorTask (A := fun _ => True) I' o t
  rw [errorTask_none hl] at hc ho
  let I2 := (((I'.setTaskStatus o .failed).findLinks (I'.defn.toLinks t)).setValue "_E" (errorObj t.id err)).setValue ("_E." ++ t.id) (errorObj t.id err)
  let e2 := (e'.modI i (fun _ => (I'.setTaskStatus o .failed).findLinks (I'.defn.toLinks t))).appendErrorData i t.id err
  have hI2 : e2.insts[i]? = some I2 := Eng.appendErrorData_self (Eng.modI_self hI' _) t.id err
  have hs2 : e.step env = e2.globalError i err := by
    rw [hstep]; exact Eng.taskError_noLink (o := o) hI' hl hnh err
  have hd2 : I2.defn = I'.defn := hc.defn
  have ht2 : I2.tasks = I'.tasks := by
    show ((I'.setTaskStatus o .failed).findLinks (I'.defn.toLinks t)).tasks = _
    rw [GraphM.findLinks_tasks]
    unfold Inst.setTaskStatus
    split <;> rfl
  rw [Eng.globalError_handler hI2 (hc.handling.trans hnh) (by rw [hd2]; exact hg) err] at hs2
  have hh2 : I2.host = I.host := ho.host.trans hho
  rw [hs2]
  by_cases hi : i = 0
  · subst hi
    refine ⟨{ I2.clearTasks with handling := true, trace := .ehStart :: .cleared :: I2.trace }, ?_, hd2.trans hd, hh2, rfl⟩
    have h9 : (e2.modI 0 (fun J => J.clearTasks)).insts[0]? = some I2.clearTasks := Eng.modI_self hI2 _
    exact Eng.modI_self h9 _
  · refine ⟨{ I2 with handling := true, trace := .ehStart :: I2.trace }, ?_, hd2.trans hd, hh2, by rw [if_neg hi]; exact ht2.trans htk⟩
    have h9 : (e2.modI 0 (fun J => J.clearTasks)).insts[i]? = some I2 := by
      rw [Eng.modI_ne (Ne.symm hi)]; exact hI2
    exact Eng.modI_self h9 _

/-- C107, part: a task of a flow instance fails without error link and the error handler is started. If then no work item of the instance
or of flows called by it is pending, and the error handler of a called flow uses no identifier of a task that is in progress,
then from then on, for ever, only tasks of the error handler are executed in this instance, and none in the flows it has called before.
What is missing: work that is pending when the error handler starts is executed, see `C107_negation`. -/
theorem C107_stops_partial {e' : Eng} {i o : Nat} {t : TaskRef} {err : Err} {I : Inst} {g : Graph} (hr : Reachable env e)
    (hI : e.insts[i]? = some I) (h : Evaluates env e i o t e' (.err err))
    (hl : ¬ hasErrorLink I.defn t) (hg : I.defn.eh = some g) (hh : I.handling = false)
    (hq : ∀ w ∈ (e.step env).queue, ¬ Below (e.step env) i w.inst)
    (hid : i = 0 ∨ ∀ u, UsesId g u → I.tasks.get? u = none)
    {j n : Nat} (hb : Below (e.step env) i j) {X K : Inst} (hX : (e.step env).insts[j]? = some X)
    (hK : ((e.step env).run env n).insts[j]? = some K)
    {tr : List Ev} (htr : K.trace = tr ++ X.trace) {ev : Ev} (hev : ev ∈ tr) {u : TaskRef} (hu : ran ev = some u) :
    j = i ∧ u.eh = true := by
  have hr1 : Reachable env (e.step env) := Eng.reachable_run hr 1
  have ok := Eng.engOK_reachable hr1
  obtain ⟨J, es, hJ, _, hhand, hcur, hstk, hes, _⟩ := C14_handler_started hI h hl hg hh
  obtain ⟨J2, hJ2, hd, hho, htk⟩ := handler_entered hI h hl hg hh
  rw [hJ] at hJ2; cases hJ2
  have hgr : J.defn.graph true = g := by rw [hd]; unfold Def.graph; rw [hg]; rfl
  have hnone : ∀ u, UsesId g u → J.tasks.get? u = none := by
    intro u hu
    rw [htk]
    split
    · rfl
    · rename_i hi; exact (hid.resolve_left hi) u hu
  have noup : ∀ {j a b : Nat} {X : Inst}, (e.step env).insts[j]? = some X → X.host = some (a, b) → a < j := by
    intro j a b X hX hhost
    by_cases hj : j = 0
    · subst hj; rw [ok.host0 X hX] at hhost; cases hhost
    · obtain ⟨a', b', h1, h2, _⟩ := ok.hosts j X hX hj
      rw [hhost] at h1; cases h1; exact h2
  have hge : ∀ {j : Nat}, Below (e.step env) i j → i ≤ j := by
    intro j hb
    induction hb with
    | self => exact Nat.le_refl _
    | sub hJ hh _ ih => exact Nat.le_trans ih (Nat.le_of_lt (noup hJ hh))
  have main : ∀ {j : Nat} {v : TaskRef}, Ahead (e.step env) j v → j < (e.step env).insts.length → Below (e.step env) i j →
      j = i ∧ v.eh = true ∧ UsesId g v.id := by
    intro j v ha
    induction ha with
    | item hw ho => intro _ hb; exact absurd hb (hq _ hw)
    | @entry fs x hs hx =>
      intro _ _
      rw [hstk] at hs
      cases List.mem_singleton.1 hs
      have := (hes x.task).1 (List.mem_map_of_mem hx)
      exact ⟨hcur, this.1, Or.inl this.2.1⟩
    | @link k X v l hv hX hlk hs ih =>
      intro hlt hb
      obtain ⟨h1, h2, h3⟩ := ih hlt hb
      subst h1
      rw [hJ] at hX; cases hX
      rw [h2, hgr] at hlk
      exact ⟨rfl, h2, Or.inr ⟨l, hlk, rfl⟩⟩
    | @handler k X v u hv hX hnh hu hn ih =>
      intro hlt hb
      obtain ⟨h1, h2, h3⟩ := ih hlt hb
      subst h1
      rw [hJ] at hX; cases hX
      rw [hhand] at hnh; cases hnh
    | @same k q X v ob hv hX hgt ho ih =>
      intro hlt hb
      obtain ⟨h1, h2, h3⟩ := ih hlt hb
      subst h1
      rw [hJ] at hX; cases hX
      rw [hnone _ h3] at hgt; cases hgt
    | @caller k a b X v ob hv hX hhost hob ih =>
      intro hlt hb
      have hk : Below (e.step env) i k := .sub hX hhost hb
      obtain ⟨h1, _, _⟩ := ih (List.getElem?_eq_some_iff.1 hX).1 hk
      subst h1
      have h4 := noup hX hhost
      have h5 := hge hb
      omega
    | new hk t => intro hlt _; omega
  have := main (C107_ahead hr1 hX hK htr hev hu) (List.getElem?_eq_some_iff.1 hX).1 hb
  exact ⟨this.1, this.2.1⟩

/-- A and B are independent; the error handler consists of H and then L. -/
def mendable : Def := { name := "f", main := ⟨[tk "A", tk "B"], []⟩, eh := some ⟨[tk "H", tk "L"], deps 1 [("H", "L")]⟩ }

/-- A fails; `p` chooses which of the two is executed first. -/
def mendableEnv (p : Nat) : Env :=
  { tableEnv (fun t => if t = "A" then { res := .err (.plain "boom") } else {}) (fun _ => .ok true) with
    pick := fun e => if e.stepID = 0 then p else 0 }

def mendableStart (p : Nat) : Eng := Eng.init (mendableEnv p) "1" "u" mendable []

/-- The failing task is executed last. -/
def mendableLast : Eng := Eng.run (mendableEnv 1) (mendableStart 1) 3

-- the hypotheses of `C107_stops_partial` hold when A fails after B has been executed, and then the error handler is executed
example : ∃ I e', mendableLast.insts[0]? = some I ∧ Evaluates (mendableEnv 1) mendableLast 0 0 ⟨false, "A"⟩ e' (.err (.plain "boom")) ∧
    ¬ hasErrorLink I.defn ⟨false, "A"⟩ ∧ I.defn.eh = some ⟨[tk "H", tk "L"], deps 1 [("H", "L")]⟩ ∧ I.handling = false ∧
    (mendableLast.step (mendableEnv 1)).queue = [] :=
  ⟨_, _, rfl, ⟨⟨⟨1, 0, 0⟩, rfl, rfl, rfl, rfl⟩, rfl⟩, (by rintro ⟨l, hl, _⟩; cases hl), rfl, rfl, rfl⟩
example : Reachable (mendableEnv 1) mendableLast := ⟨_, _, _, _, 3, rfl⟩
example : ∃ J, ((mendableLast.step (mendableEnv 1)).run (mendableEnv 1) 12).insts[0]? = some J ∧
    .evalAct 3 ⟨true, "L"⟩ ∈ J.trace ∧ J.status = .completed := ⟨_, rfl, by decide +kernel, by decide +kernel⟩

-- ahead of the state in which A has failed lie the error handler and nothing else
example : Ahead (mendableLast.step (mendableEnv 1)) 0 ⟨true, "L"⟩ :=
  .link (t := ⟨true, "H"⟩) (l := ⟨1, "H", "L", .dependency, ""⟩)
    (.entry (es := [⟨⟨true, "H"⟩, 0⟩]) (by decide +kernel) (List.mem_singleton.2 rfl)) rfl (by decide +kernel) rfl

/-- C107 fails: when A fails first, the error handler is started, and B is executed afterwards although it is no task of the error
handler. -/
theorem C107_negation : ∃ env e e' I J K tr, Reachable env e ∧ e.insts[0]? = some I ∧ Evaluates env e 0 0 ⟨false, "A"⟩ e' (.err (.plain "boom")) ∧
    ¬ hasErrorLink I.defn ⟨false, "A"⟩ ∧ I.defn.eh = some ⟨[tk "H", tk "L"], deps 1 [("H", "L")]⟩ ∧ I.handling = false ∧
    (e.step env).insts[0]? = some J ∧ ((e.step env).run env 12).insts[0]? = some K ∧ K.trace = tr ++ J.trace ∧
    .evalAct 1 ⟨false, "B"⟩ ∈ tr := by
  refine ⟨mendableEnv 0, mendableStart 0, _, _, _, _,
    (((mendableStart 0).step (mendableEnv 0)).run (mendableEnv 0) 12).insts[0]?.elim [] (fun K => K.trace.take
      (K.trace.length - (((mendableStart 0).step (mendableEnv 0)).insts[0]?.elim 0 (fun J => J.trace.length)))),
    ⟨_, _, _, _, 0, rfl⟩, rfl, ⟨⟨⟨1, 0, 0⟩, rfl, rfl, rfl, rfl⟩, rfl⟩, ?_, rfl, rfl, rfl, rfl, ?_, ?_⟩
  · rintro ⟨l, hl, _⟩; cases hl
  · decide +kernel
  · decide +kernel

end Flow
