import Verif.Proofs.BoundRun
import Verif.Spec.Plain
/-!
# An execution that never comes to rest

The called flow `pair` has two tasks that both fail. Each failure schedules the task that calls it. The first of the two work items
ends that task with its error, the second one starts the called flow again.
-/

namespace Flow
open Spec Eng
namespace BoundCase

set_option linter.unusedSimpArgs false

/-- Two tasks without links. -/
def pair : Def := { name := "s", main := ⟨[tk "X", tk "Y"], []⟩ }
/-- `A` calls `pair`, `B` follows its error and waits for `C`, which is still waiting. -/
def endless : Def := { name := "f", main := ⟨[{ tk "A" with act := .subflow "s" }, tk "C", tk "B"], [⟨1, "A", "B", .error, ""⟩, ⟨2, "C", "B", .dependency, ""⟩]⟩ }
/-- `C` waits for ever, all other tasks fail. -/
def endlessEnv : Env := { tableEnv (fun t => if t = "C" then { res := .wait } else { res := .err (.plain "boom") }) (fun _ => .ok true) with
  defs := fun u => if u = "s" then .ok (some pair) else .ok none }

/-- Parts of the state that do not matter. -/
structure Junk where
  id : String
  rest : List Inst
  w : Nat
  w2 : Nat
  c : Nat
  s : Nat
  ctr : Nat
  subs : AMap Nat Nat
  cur : Nat
  rep : List (AMap String Val × Option Err)
  qlog : List QEv
  attrs : AMap String Val
  trace : List Ev
  posted : List Post
  uri : String
  suri : String
  sid : Nat
  sattrs : AMap String Val
  strace : List Ev
  sposted : List Post

def top (x : Junk) (st : TaskStatus) : Inst :=
  { defn := endless, uri := x.uri, status := .active,
    objs := [{ task := ⟨false, "A"⟩, status := st, returnError := some (.plain "boom") }, { task := ⟨false, "C"⟩, status := .waiting },
      { task := ⟨false, "B"⟩, status := .entered }],
    tasks := [("C", 1), ("B", 2)], links := [(1, .true), (2, .unset)], attrs := x.attrs, trace := x.trace, posted := x.posted }

def low (x : Junk) (h : Bool) (s : FlowStatus) (a b : TaskStatus) : Inst :=
  { defn := pair, uri := x.suri, subflowId := x.sid, host := some (0, 0), handling := h, status := s,
    objs := [{ task := ⟨false, "X"⟩, status := a }, { task := ⟨false, "Y"⟩, status := b }],
    tasks := [("X", 0), ("Y", 1)], attrs := x.sattrs, trace := x.strace, posted := x.sposted }

def eng (x : Junk) (is : List Inst) (q : List WorkItem) : Eng :=
  { id := x.id, insts := is, queue := q, wiCounter := x.c, stepID := x.s, subflowCtr := x.ctr, subflows := x.subs, cur := x.cur, stack := [],
    replies := x.rep, qlog := x.qlog }

/-! States between the steps of the loop. -/

def s0 (x : Junk) : Eng := eng x (top x .failed :: x.rest) [⟨x.w, 0, 0⟩]
def s1 (x : Junk) : Eng := eng x (top x .waiting :: (x.rest ++ [low x false .active .ready .ready])) [⟨x.w, x.rest.length + 1, 0⟩, ⟨x.w2, x.rest.length + 1, 1⟩]
def s2 (x : Junk) : Eng := eng x (top x .waiting :: (x.rest ++ [low x true .failed .failed .ready])) [⟨x.w, x.rest.length + 1, 1⟩, ⟨x.w2, 0, 0⟩]
def s3 (x : Junk) : Eng := eng x (top x .waiting :: x.rest) [⟨x.w, 0, 0⟩, ⟨x.w2, 0, 0⟩]

theorem modify_end {α : Type} (l : List α) (x : α) (f : α → α) : (l ++ [x]).modify l.length f = l ++ [f x] := by
  induction l with
  | nil => rfl
  | cons y ys ih => simp [ih]



theorem enterX (I : Inst) (h : I.defn = pair) (hh : I.handling = false) (ho : I.objs = []) (ht : I.tasks = []) (hl : I.links = []) :
    ∃ tr po, I.enterTask ⟨false, "X"⟩ = ({ I with objs := [{ task := ⟨false, "X"⟩, status := .ready }], tasks := [("X", 0)], trace := tr, posted := po }, 0, .eval) := by
  cases I
  simp only at h hh ho ht hl
  subst h hh ho ht hl
  exact ⟨_, _, rfl⟩

theorem enterY (I : Inst) (h : I.defn = pair) (hh : I.handling = false) (ho : I.objs = [{ task := ⟨false, "X"⟩, status := .ready }]) (ht : I.tasks = [("X", 0)]) (hl : I.links = []) :
    ∃ tr po, I.enterTask ⟨false, "Y"⟩ = ({ I with objs := [{ task := ⟨false, "X"⟩, status := .ready }, { task := ⟨false, "Y"⟩, status := .ready }], tasks := [("X", 0), ("Y", 1)], trace := tr, posted := po }, 1, .eval) := by
  cases I
  simp only at h hh ho ht hl
  subst h hh ho ht hl
  exact ⟨_, _, rfl⟩

theorem startPair (e : Eng) (I : Inst) (l : List Inst) (J : Inst) (he : e.insts = I :: (l ++ [J]))
    (h : J.defn = pair) (hh : J.handling = false) (ho : J.objs = []) (ht : J.tasks = []) (hl : J.links = []) (ins : AMap String Val) :
    ∃ ats tr po ql, startInstance endlessEnv e (l.length + 1) ins =
      { e with insts := I :: (l ++ [{ J with status := .active, objs := [{ task := ⟨false, "X"⟩, status := .ready }, { task := ⟨false, "Y"⟩, status := .ready }], tasks := [("X", 0), ("Y", 1)], attrs := ats, trace := tr, posted := po }]), wiCounter := e.wiCounter + 2, queue := e.queue ++ [⟨e.wiCounter + 1, l.length + 1, 0⟩, ⟨e.wiCounter + 2, l.length + 1, 1⟩], qlog := ql } := by
  have hs : Inst.startEntries J.defn false = [⟨⟨false, "X"⟩, 0⟩, ⟨⟨false, "Y"⟩, 0⟩] := by rw [h]; rfl
  obtain ⟨t1, p1, h1⟩ := enterX ({ J with attrs := e.startAttrs endlessEnv J (e.parentOf J) ins }.setFlowStatus .active) h hh ho ht hl
  obtain ⟨t2, p2, h2⟩ := enterY { ({ J with attrs := e.startAttrs endlessEnv J (e.parentOf J) ins }.setFlowStatus .active) with objs := [{ task := ⟨false, "X"⟩, status := .ready }], tasks := [("X", 0)], trace := t1, posted := p1 } h hh rfl rfl hl
  have hset : ∀ e i o, endlessEnv.settingsOk e i o = true := fun _ _ _ => rfl
  refine ⟨e.startAttrs endlessEnv J (e.parentOf J) ins, t2, p2, ?_, ?_⟩
  rotate_left
  · unfold startInstance
    simp only [he, List.getElem?_cons_succ, List.getElem?_concat_length, modI, List.modify_succ_cons, modify_end, hs, enterStart, h1, hset, if_true, schedule, h2,
     List.append_assoc, List.cons_append, List.nil_append]
    rfl

theorem first (x : Junk) : ∃ y, step endlessEnv (s0 x) = s1 y := by
  have h : step endlessEnv (s0 x) = (startSubFlow endlessEnv (eng { x with s := x.s + 1, qlog := .removed ⟨x.w, 0, 0⟩ :: x.qlog } (top { x with trace := .evalAct 0 ⟨false, "A"⟩ :: x.trace } .failed :: x.rest) []) 0 0 "s" []).1.setStatus 0 0 .waiting := by
    rfl
  rw [h]
  obtain ⟨a, t, p, q, hp⟩ := startPair ((eng { x with s := x.s + 1, qlog := .removed ⟨x.w, 0, 0⟩ :: x.qlog } (top { x with trace := .evalAct 0 ⟨false, "A"⟩ :: x.trace } .failed :: x.rest) []).newEmbedded 0 0 "s" pair)
    (top { x with trace := .evalAct 0 ⟨false, "A"⟩ :: x.trace } .failed) x.rest
    { defn := pair, uri := "s", subflowId := x.ctr + 1, host := some (0, 0) } rfl rfl rfl rfl rfl rfl []
  have h2 : (startSubFlow endlessEnv (eng { x with s := x.s + 1, qlog := .removed ⟨x.w, 0, 0⟩ :: x.qlog } (top { x with trace := .evalAct 0 ⟨false, "A"⟩ :: x.trace } .failed :: x.rest) []) 0 0 "s" []).1 =
     startInstance endlessEnv ((eng { x with s := x.s + 1, qlog := .removed ⟨x.w, 0, 0⟩ :: x.qlog } (top { x with trace := .evalAct 0 ⟨false, "A"⟩ :: x.trace } .failed :: x.rest) []).newEmbedded 0 0 "s" pair) (x.rest.length + 1) [] := rfl
  rw [h2, hp]
  exact ⟨⟨_, _, _, _, _, _, _, _, _, _, _, _, _, _, _, _, _, _, _, _⟩, rfl⟩



theorem errorX (I : Inst) (h : I.defn = pair) (o : Nat) (t : TaskId) : I.errorTask o ⟨false, t⟩ = (I.setTaskStatus o .failed, none) := by
  unfold Inst.errorTask
  rw [h]
  rfl

theorem pairX : pair.task? ⟨false, "X"⟩ = some (tk "X") := rfl
theorem pairY : pair.task? ⟨false, "Y"⟩ = some (tk "Y") := rfl
theorem pairEh : pair.eh = none := rfl

theorem second (x : Junk) : ∃ y, step endlessEnv (s1 x) = s2 y := by
  simp [step, doStep, s1, eng, top, low, endlessEnv, tableEnv, plainEnv, exec, obj?, taskDef?, pairX, pairY, pairEh, tk, evalKind, evalBasic, evalActivity, evalOnce,
    applyInputMapper, inputInterceptor, icpIn, evalWith, mocked, icpOut, callActivity, modI, List.modify_succ_cons, modify_end, 
    taskOf, applyActOut, evalErrorData, handleResult, taskError, Err.setActivity, Err.retriable, AMap.update, errorX, appendErrorData, globalError, failHost, schedule, Inst.setValue, Inst.setTaskStatus, Inst.modO, Inst.setFlowStatus]
  exact ⟨⟨x.id, x.rest, x.w2, x.c + 1, x.c + 1, x.s + 1, x.ctr, x.subs, x.cur, x.rep, _, x.attrs, x.trace, x.posted, x.uri, x.suri, x.sid, _, _, _⟩, rfl⟩

theorem third (x : Junk) : ∃ y, step endlessEnv (s2 x) = s3 y := by
  simp [step, doStep, s2, eng, top, low, endlessEnv, tableEnv, plainEnv, exec, obj?, taskDef?, pairX, pairY, pairEh, tk, evalKind, evalBasic, evalActivity, evalOnce,
    applyInputMapper, inputInterceptor, icpIn, evalWith, mocked, icpOut, callActivity, modI, List.modify_succ_cons, modify_end, 
    taskOf, applyActOut, evalErrorData, handleResult, taskError, Err.setActivity, Err.retriable, AMap.update, errorX, appendErrorData, globalError, failHost, schedule, Inst.setValue, Inst.setTaskStatus, Inst.modO, Inst.setFlowStatus]
  exact ⟨⟨_, _, _, _, _, _, _, _, _, _, _, _, _, _, _, x.suri, 0, [], [], []⟩, rfl⟩

def s4 (x : Junk) : Eng := { eng x (top x .failed :: x.rest) [⟨x.w, 0, 0⟩] with cur := 0, stack := [.enter [⟨⟨false, "B"⟩, 0⟩], .release ⟨false, "A"⟩] }

theorem fourth (x : Junk) : ∃ y, step endlessEnv (s3 x) = s4 y := by
  exact ⟨⟨x.id, x.rest, x.w2, 0, x.c, x.s + 1, x.ctr, x.subs, 0, x.rep, _, _, _, _, x.uri, x.suri, 0, [], [], []⟩, rfl⟩

def s5 (x : Junk) : Eng := { eng x (top x .failed :: x.rest) [⟨x.w, 0, 0⟩] with cur := 0, stack := [.enter [], .release ⟨false, "A"⟩] }

theorem fifth (x : Junk) : ∃ y, step endlessEnv (s4 x) = s5 y := by
  exact ⟨⟨x.id, x.rest, x.w, 0, x.c, x.s, x.ctr, x.subs, 0, x.rep, x.qlog, x.attrs, _, _, x.uri, x.suri, 0, [], [], []⟩, rfl⟩

def s6 (x : Junk) : Eng := { eng x (top x .failed :: x.rest) [⟨x.w, 0, 0⟩] with cur := 0, stack := [.release ⟨false, "A"⟩] }

theorem sixth (x : Junk) : step endlessEnv (s5 x) = s6 x := rfl

theorem seventh (x : Junk) : ∃ y, step endlessEnv (s6 x) = s0 y := by
  exact ⟨⟨x.id, x.rest, x.w, 0, x.c, x.s, x.ctr, x.subs, 0, x.rep, x.qlog, x.attrs, _, _, x.uri, x.suri, 0, [], [], []⟩, rfl⟩

/-- The states of the loop. -/
inductive Phase : Eng → Prop
  | p0 (x) : Phase (s0 x)
  | p1 (x) : Phase (s1 x)
  | p2 (x) : Phase (s2 x)
  | p3 (x) : Phase (s3 x)
  | p4 (x) : Phase (s4 x)
  | p5 (x) : Phase (s5 x)
  | p6 (x) : Phase (s6 x)

theorem Phase.step {e : Eng} (h : Phase e) : Phase (e.step endlessEnv) := by
  cases h with
  | p0 x => obtain ⟨y, h⟩ := first x; rw [h]; exact .p1 y
  | p1 x => obtain ⟨y, h⟩ := second x; rw [h]; exact .p2 y
  | p2 x => obtain ⟨y, h⟩ := third x; rw [h]; exact .p3 y
  | p3 x => obtain ⟨y, h⟩ := fourth x; rw [h]; exact .p4 y
  | p4 x => obtain ⟨y, h⟩ := fifth x; rw [h]; exact .p5 y
  | p5 x => exact sixth x ▸ .p6 x
  | p6 x => obtain ⟨y, h⟩ := seventh x; rw [h]; exact .p0 y

theorem Phase.busy {e : Eng} (h : Phase e) : ¬ NothingLeft endlessEnv e := by
  rintro ⟨h1, h2⟩
  cases h <;> cases h1 <;> cases h2

theorem reached : ∃ y, run endlessEnv (init endlessEnv "1" "u" endless []) 8 = s0 y := by
  exact ⟨⟨_, _, _, 0, _, _, _, _, _, _, _, _, _, _, _, "", 0, [], [], []⟩, rfl⟩

end BoundCase
end Flow
