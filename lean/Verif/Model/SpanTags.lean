import Verif.Model.Spans

/-
What the engine tells the tracer about a span: operation and tags. Not modelled: the tag `task_type` and the logger; for
`task_instance_id` see TaskIds.
-/

namespace Flow

/-- `trace.Config` as filled by the two `SpanConfig` functions. -/
structure SpanTags where
  operation : String
  flowId : String
  flowName : String
  /-- `parent_flow_id` and `parent_flow_name`. -/
  parent : Option (String × String) := none
  /-- `task_name`. -/
  taskName : Option String := none
deriving DecidableEq

/-- `Instance.SpanConfig`, ind_instance.go lines 950-964; `inst.master` is never nil while a flow is executed. -/
def Eng.flowTags (e : Eng) (I : Inst) : SpanTags :=
  { operation := I.defn.name
    flowId := e.instID I
    flowName := I.defn.name
    parent := if e.id ≠ e.instID I then some (e.id, e.topName) else none }

/-- `TaskInst.SpanConfig`, taskinst.go lines 610-621. -/
def Eng.taskTags (e : Eng) (i : Nat) (I : Inst) (ob : Obj) : SpanTags :=
  { operation := e.taskName i ob.task
    flowId := e.instID I
    flowName := I.defn.name
    taskName := some (e.taskName i ob.task) }

/-- What is told when a span of this owner is started (taskinst.go line 327, ind_instance.go line 120, action.go line 319).
Simplification: it is a function of the state, since it does not depend on when the span is started (`C113_stable`). -/
def Eng.tagsOf (e : Eng) : SpanOwner → Option SpanTags
  | .flow j => (e.insts[j]?).map e.flowTags
  | .task i o => (e.insts[i]?).bind (fun I => (I.objs[o]?).map (e.taskTags i I))

end Flow
