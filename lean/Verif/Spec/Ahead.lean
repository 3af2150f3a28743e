import Verif.Spec.Below

/-
Which tasks lie ahead of a state: those that can still be executed because something that leads to them is pending.
-/

namespace Flow.Spec

open Flow

/-- The task is executed: its activity is evaluated, or resumed after waiting. -/
def ran : Ev → Option TaskRef
  | .evalAct _ t => some t
  | .postAct _ t => some t
  | _ => none

/-- The task `t` of flow instance `k` lies ahead of the state: there is a work item for it, it is about to be entered, it follows a task
ahead by a link, it is a start task of an error handler that has not been started, it is the task that waits for a flow with tasks ahead,
or its flow instance does not exist yet. The task table of an instance has one entry per identifier: a task ahead may be taken for one of
the same identifier that has an entry already. -/
inductive Ahead (e : Eng) : Nat → TaskRef → Prop
  | item {w : WorkItem} {ob : Obj} (hw : w ∈ e.queue) (ho : e.obj? w.inst w.obj = some ob) : Ahead e w.inst ob.task
  | entry {es : List TaskEntry} {x : TaskEntry} (hs : .enter es ∈ e.stack) (hx : x ∈ es) : Ahead e e.cur x.task
  | link {k : Nat} {I : Inst} {t : TaskRef} {l : LinkDef} (ht : Ahead e k t) (hI : e.insts[k]? = some I)
      (hl : l ∈ (I.defn.graph t.eh).links) (hs : l.src = t.id) : Ahead e k ⟨t.eh, l.dst⟩
  | handler {k : Nat} {I : Inst} {t : TaskRef} {u : TaskDef} (ht : Ahead e k t) (hI : e.insts[k]? = some I) (hh : I.handling = false)
      (hu : u ∈ (I.defn.graph true).tasks) (hn : ∀ l ∈ (I.defn.graph true).links, l.dst ≠ u.id) : Ahead e k ⟨true, u.id⟩
  | same {k o : Nat} {I : Inst} {t : TaskRef} {ob : Obj} (ht : Ahead e k t) (hI : e.insts[k]? = some I)
      (hg : I.tasks.get? t.id = some o) (ho : I.objs[o]? = some ob) : Ahead e k ob.task
  | caller {k hi ho : Nat} {I : Inst} {t : TaskRef} {ob : Obj} (ht : Ahead e k t) (hI : e.insts[k]? = some I)
      (hh : I.host = some (hi, ho)) (hb : e.obj? hi ho = some ob) : Ahead e hi ob.task
  | new {k : Nat} (hk : e.insts.length ≤ k) (t : TaskRef) : Ahead e k t

end Flow.Spec
