import Verif.Model.Serial
import Verif.Spec.Cover
import Verif.Spec.Plain

/-
Specification of "continues as the original": environments that look only at the data of the flow and at the own task, and what is
observed of a run.
-/

namespace Flow

/-- An event without the identity of the task object. -/
def Ev.name : Ev → Ev
  | .taskAdded _ t => .taskAdded 0 t
  | .taskStatus _ t s => .taskStatus 0 t s
  | .evalAct _ t => .evalAct 0 t
  | .postAct _ t => .postAct 0 t
  | x => x

/-- The same for the events posted to listeners. -/
def Post.name : Post → Post
  | .task _ t s err => .task 0 t s err
  | x => x

namespace Spec

/-- The top-level flows of the two runs have the same definition and attributes. -/
def AlikeFlow (e f : Eng) : Prop := ∃ I J : Inst, e.insts[0]? = some I ∧ f.insts[0]? = some J ∧ I.attrs = J.attrs ∧ I.defn = J.defn

/-- So have they, and the two task objects are the same in all respects. -/
def Alike (e f : Eng) (o p : Nat) : Prop := ∃ (I J : Inst) (ob : Obj), e.insts[0]? = some I ∧ f.insts[0]? = some J ∧ I.attrs = J.attrs ∧
  I.defn = J.defn ∧ I.objs[o]? = some ob ∧ J.objs[p]? = some ob

/-- Activities, mappers, schemas and settings depend only on the attributes of the flow and the task they belong to, link expressions
only on the attributes; which pending item is next depends only on the number of pending items (as for a first-in first-out queue). -/
structure DataOnly (env : Env) : Prop where
  pick : ∀ e f : Eng, e.queue.length = f.queue.length → env.pick e = env.pick f
  act : ∀ e f o p, Alike e f o p → env.act e 0 o = env.act f 0 p
  post : ∀ e f o p, Alike e f o p → env.post e 0 o = env.post f 0 p
  link : ∀ e f l, AlikeFlow e f → env.link e 0 l = env.link f 0 l
  inMap : ∀ e f o p, Alike e f o p → env.inMap e 0 o = env.inMap f 0 p
  outMap : ∀ e f o p, Alike e f o p → env.outMap e 0 o = env.outMap f 0 p
  settingsOk : ∀ e f o p, Alike e f o p → env.settingsOk e 0 o = env.settingsOk f 0 p
  inSchema : ∀ e f o p, Alike e f o p → env.inSchema e 0 o = env.inSchema f 0 p
  outSchema : ∀ e f o p, Alike e f o p → env.outSchema e 0 o = env.outSchema f 0 p
  retryCount : ∀ e f o p, Alike e f o p → env.retryCount e 0 o = env.retryCount f 0 p
  iterOn : ∀ e f o p, Alike e f o p → env.iterOn e 0 o = env.iterOn f 0 p
  cond : ∀ e f o p, Alike e f o p → env.cond e 0 o = env.cond f 0 p

/-- The same entries were added to two lists (newest first). -/
def Since {α : Type} (p : List α × List α) (a b : List α) : Prop := ∃ X, a = X ++ p.1 ∧ b = X ++ p.2

/-- The top-level flow `I` of the run is active, no function of the engine is in progress, no other flow and no error handler was
started, nothing was returned; the tasks of the table have not begun, and the pending work belongs to them. -/
structure AtRest (e : Eng) (I : Inst) : Prop where
  one : e.insts = [I]
  plain : NoSubflows I.defn
  stack : e.stack = []
  active : I.status = .active
  handling : I.handling = false
  force : I.force = false
  returnData : I.returnData = none
  returnError : I.returnError = none
  known : ∀ t o, I.tasks.get? t = some o → (I.defn.task? ⟨false, t⟩).isSome
  fresh : ∀ t o, I.tasks.get? t = some o → ∃ s, I.objs[o]? = some { task := ⟨false, t⟩, status := s }
  items : ∀ w ∈ e.queue, w.inst = 0 ∧ ∃ t, I.tasks.get? t = some w.obj

/-- What is seen of a flow: status, attributes, links, results and tasks with their status. -/
structure SameFlow (I J : Inst) : Prop where
  status : I.status = J.status
  attrs : I.attrs = J.attrs
  links : I.links = J.links
  returnData : I.returnData = J.returnData
  returnError : I.returnError = J.returnError
  tasks : I.tasks.map (fun p => (p.1, (I.objs[p.2]?).map (·.status))) = J.tasks.map (fun p => (p.1, (J.objs[p.2]?).map (·.status)))

/-- Two runs, of which the first has `I0` and replies `r0` behind it and the second nothing but its activation, have got to the
same point in the same way: the same flow, the same pending tasks, the same events since, the same news to listeners and the same
replies since. -/
structure Continues (r0 : List (AMap String Val × Option Err)) (I0 : Inst) (e f : Eng) : Prop where
  flow : ∃ I J, e.insts = [I] ∧ f.insts = [J] ∧ SameFlow I J ∧
    Since (I0.trace.map Ev.name, [.flowStatus .active]) (I.trace.map Ev.name) (J.trace.map Ev.name) ∧
    Since (I0.posted.map Post.name, [.flow .active none]) (I.posted.map Post.name) (J.posted.map Post.name)
  pending : e.queue.map (fun w => taskOf e w.inst w.obj) = f.queue.map (fun w => taskOf f w.inst w.obj)
  replies : Since (r0, []) e.replies f.replies

end Spec

end Flow
