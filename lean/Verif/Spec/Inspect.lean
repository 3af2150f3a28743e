import Verif.Spec.Definition
import Verif.Model.Inspect

/-
Specification of C111: what is listed about a loaded flow.
-/

namespace Flow.Spec

open Flow.Ser

/-- All links of a description, those of the error handler last. -/
def DefRep.allLinks (rep : DefRep) : List LinkRep :=
  rep.links ++ (match rep.handler with
    | none => []
    | some h => h.links)

/-- The links of a description that are described as conditional, numbered in order of description. -/
def DefRep.conditions (rep : DefRep) : List (LinkRep × Nat) :=
  (DefRep.allLinks rep).zipIdx.filter fun p => p.1.type = "expression" || p.1.type = "1"

end Flow.Spec
