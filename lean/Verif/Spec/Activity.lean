import Verif.Model.Activity

/-
Specifications for the activities of a flow definition.
-/

namespace Flow.Spec

open Act

/-- Settings of the activity can be changed while the engine runs: it supports that and was configured with settings. -/
def Changeable (env : ActEnv) (c : ActCfg) : Prop := c.settings ≠ [] ∧ ∃ d, env.get c.ref = some d ∧ d.reconfigurable = true

/-- Of the configuration `c`, exactly the given settings were replaced. -/
def Replaced (env : ActEnv) (c : ActCfg) (given : AMap String Val) (c' : ActCfg) : Prop :=
  c' = { c with settings := c'.settings } ∧
  (∀ n v, given.get? n = some v → c'.settings.get? n = some (env.resolve c.ref n v).1) ∧
  ∀ n, given.get? n = none → c'.settings.get? n = c.settings.get? n

/-- The description fits: task identifiers are distinct, the tasks it names have an activity, and if settings can be changed,
they are given and can be resolved. -/
structure Fits (env : ActEnv) (m : Acts) (rs : List TaskActRep) : Prop where
  ids : (rs.map (·.id)).Nodup
  act : ∀ r ∈ rs, m.get? r.id ≠ some none
  given : ∀ r ∈ rs, ∀ c, m.get? r.id = some (some c) → Changeable env c →
    ∃ a, r.act = some a ∧ a.settings.keys.Nodup ∧ ∀ p ∈ a.settings, (env.resolve c.ref p.1 p.2).2 = none

/-- What becomes of the tasks `m`. -/
structure Applied (env : ActEnv) (m : Acts) (rs : List TaskActRep) (m' : Acts) : Prop where
  /-- the named tasks -/
  named : ∀ r ∈ rs, ∀ c, m.get? r.id = some (some c) → Changeable env c →
    ∃ a c', r.act = some a ∧ m'.get? r.id = some (some c') ∧ Replaced env c a.settings c'
  /-- tasks whose settings cannot be changed -/
  fixed : ∀ t c, m.get? t = some (some c) → ¬ Changeable env c → m'.get? t = some (some c)
  /-- all other tasks -/
  others : ∀ t, t ∉ rs.map (·.id) → m'.get? t = m.get? t

/-- An activity with resources of its own. -/
def Disposable (env : ActEnv) (c : ActCfg) : Prop := ∃ d, env.get c.ref = some d ∧ d.factory = true ∧ d.needsCleanup = true

/-- A connection object has an identifier and a type. -/
def ConnectionObject (v : Val) : Prop := ∃ m, v = .obj m ∧ (∃ i, AMap.get? m "id" = some i) ∧ ∃ t, AMap.get? m "type" = some t

/-- What is stored for a given value whose declared type is `typ`: the value, if it is an expression or nothing is declared;
otherwise the value converted to the declared type. -/
def Stored (env : ActEnv) (typ : Option String) (v w : Val) : Prop :=
  (env.isExpr v = true ∨ typ = none) ∧ w = v ∨ env.isExpr v = false ∧ ∃ T, typ = some T ∧ env.coerce v T = (w, none)

/-- The value is a constant that cannot be converted to its declared type. -/
def Misfit (env : ActEnv) (typ : Option String) (v : Val) : Prop :=
  env.isExpr v = false ∧ ∃ T w err, typ = some T ∧ env.coerce v T = (w, some err)

/-- The name is an alias. -/
def IsAlias (s : String) : Prop := ∃ l, s.toList = '#' :: l

/-- The task refers to the activity `ref`: by its reference, by an alias, or, deprecated and only without reference, by its type. -/
def Refers (env : ActEnv) (r : ActRep) (ref : String) : Prop :=
  (r.ref ≠ "" ∧ ¬ IsAlias r.ref ∧ ref = r.ref) ∨ (IsAlias r.ref ∧ env.alias r.ref = some ref) ∨
    (r.ref = "" ∧ r.type ≠ "" ∧ env.alias ("#" ++ r.type) = some ref)

/-- What is described fits the activity `d`. -/
structure Acceptable (env : ActEnv) (r : ActRep) (ref : String) (d : Desc) : Prop where
  settings : ∀ p ∈ r.settings, (env.resolve ref p.1 p.2).2 = none
  inputs : ∀ p ∈ r.input, Misfit env (d.inputs.get? p.1) p.2 → d.inputs.get? p.1 = some "connection" ∧ ConnectionObject p.2 ∨ env.testMode = true
  outputs : ∀ p ∈ r.output, ¬ Misfit env (d.outputs.get? p.1) p.2
  inSchemas : ∀ m, r.inSchemas = some m → ∀ p ∈ m, env.schema p.2 = none
  outSchemas : ∀ m, r.outSchemas = some m → ∀ p ∈ m, env.schema p.2 = none

end Flow.Spec
