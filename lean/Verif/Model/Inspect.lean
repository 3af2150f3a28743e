import Verif.Model.DefinitionSer

/-
What a program can find out about a loaded flow: its tasks, its links and its conditions.
-/

namespace Flow.Ser

/-- One iteration over a Go map: every entry is visited once, in an order that is not determined. -/
structure MapVisit where
  visit : {α : Type} → List α → List α
  perm : ∀ {α : Type} (l : List α), (visit l).Perm l

/-- `Definition.Tasks`, definition/definition.go lines 168-175, and `ErrorHandler.Tasks`, lines 506-513. -/
def BGraph.listTasks (v : MapVisit) (g : BGraph) : List BTask := (v.visit g.tasks).map (·.2)

/-- `Definition.Links`, definition/definition.go lines 177-183; the same loop over the links of an error handler,
definition/expr.go lines 43-48. -/
def BGraph.listLinks (v : MapVisit) (g : BGraph) : List LinkDef := (v.visit g.links).map (·.2)

/-- `Definition.GetTask`, definition/definition.go lines 54-57, and `ErrorHandler.GetTask`, lines 515-517; `none` is nil. -/
def BGraph.findTask (g : BGraph) (t : TaskId) : Option BTask := g.tasks.get? t

/-- `Definition.GetLink`, definition/definition.go lines 60-63; `none` is nil. -/
def BDef.getLink (d : BDef) (l : LinkId) : Option LinkDef := d.main.links.get? l

/-- `if link.Type() == LtExpression { links = append(links, link) }`, definition/expr.go lines 35-40 and 43-48. -/
def keepExpressions : List LinkDef → List LinkDef
  | [] => []
  | l :: ls => if l.type = .expression then l :: keepExpressions ls else keepExpressions ls

/-- `GetExpressionLinks`, definition/expr.go lines 31-53, with the two iterations over maps. -/
def BDef.expressionLinks (v w : MapVisit) (d : BDef) : List LinkDef :=
  keepExpressions (d.main.listLinks v) ++
    (match d.handler with
     | none => []
     | some h => keepExpressions (h.listLinks w))

end Flow.Ser
