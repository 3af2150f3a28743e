import Verif.Model.DefinitionSer

/-
Vocabulary for the properties of definitions: the links a description asks for, independent of the order in
which the definition is built.
-/

namespace Flow.Spec

open Flow.Ser

/-- The documented names of link types (`docs/model.md`, `definition/schema.json`). -/
def typeNames : List (String × LinkType) :=
  [("", .dependency), ("default", .dependency), ("dependency", .dependency), ("0", .dependency),
   ("expression", .expression), ("1", .expression), ("label", .label), ("2", .label),
   ("error", .error), ("3", .error), ("exprOtherwise", .otherwise), ("4", .otherwise)]

/-- The type a description asks for; names that are not documented count as dependency. -/
def typeOf (s : String) : LinkType := (typeNames.lookup s).getD .dependency

/-- The link described at position `i`. -/
def linkOf (p : LinkRep × Nat) : LinkDef :=
  { id := p.2, src := p.1.src, dst := p.1.to, type := typeOf p.1.type, label := p.1.label }

/-- The described links leaving a task, in order of description, numbered from `n`. -/
def outgoing (ls : List LinkRep) (n : Nat) (t : TaskId) : List LinkDef :=
  ((ls.zipIdx n).map linkOf).filter (fun l => l.src = t)

/-- The described links entering a task, in order of description, numbered from `n`. -/
def incoming (ls : List LinkRep) (n : Nat) (t : TaskId) : List LinkDef :=
  ((ls.zipIdx n).map linkOf).filter (fun l => l.dst = t)

/-- The last description with the given identifier. -/
def lastRep : List TaskRep → TaskId → Option TaskRep
  | [], _ => none
  | r :: rs, t => (lastRep rs t).orElse (fun _ => if r.id = t then some r else none)

/-- The built graph is the described one: its tasks are the described tasks (the last one for each identifier),
its links are the described links, and each task has the described incoming and outgoing links. -/
structure SameGraph (ts : List TaskRep) (ls : List LinkRep) (n : Nat) (g : BGraph) : Prop where
  tasks : ∀ t : TaskId, (g.tasks.get? t).map (·.rep) = lastRep ts t
  distinct : g.tasks.keys.Nodup
  links : g.links.map (·.2) = (ls.zipIdx n).map linkOf
  out : ∀ (t : TaskId) (b : BTask), g.tasks.get? t = some b → b.toLinks = outgoing ls n t
  into : ∀ (t : TaskId) (b : BTask), g.tasks.get? t = some b → b.fromLinks = incoming ls n t

end Flow.Spec

namespace Flow.Spec

open Flow.Ser

/-! ### Loop settings -/

/-- What the core library guarantees about values that already have the right type. -/
structure CoreOk (env : SerEnv) : Prop where
  obj : ∀ m, env.toObject (.obj m) = .ok m
  int : ∀ n, env.toInt (.int n) = .ok n
  bool : ∀ b, env.toBool (.bool b) = b

/-- What a loop iterates on, as a user writes it: an expression or a constant. -/
inductive Over
  | expr (s : String)
  | const (v : Val)

/-- The loop settings of `docs/model.md`. -/
structure LoopSettings where
  condition : Option String := none
  over : Option Over := none
  delay : Option Int := none
  accumulate : Option Bool := none

/-- An expression that is not empty and does not begin with `=`. -/
def PlainExpr (s : String) : Prop := ∃ c r, s.toList = c :: r ∧ c ≠ '='

/-- The setting is not given: absent, or null. -/
def NotGiven (m : AMap String Val) (k : String) : Prop := m.get? k = none ∨ m.get? k = some .null

/-- The settings `m` say `L`. Expressions may be written with or without the leading `=`, and `iterate` is the
old name of `iterateOn`. -/
structure Says (m : AMap String Val) (L : LoopSettings) : Prop where
  condition : match L.condition with
    | none => m.get? "condition" = none
    | some e => PlainExpr e ∧ (m.get? "condition" = some (.str e) ∨ m.get? "condition" = some (.str ("=" ++ e)))
  over : match L.over with
    | none => NotGiven m "iterateOn" ∧ NotGiven m "iterate"
    | some (.expr e) => PlainExpr e ∧ ∃ k, (k = "iterateOn" ∨ (k = "iterate" ∧ NotGiven m "iterateOn")) ∧
        (m.get? k = some (.str e) ∨ m.get? k = some (.str ("=" ++ e)))
    | some (.const v) => (∀ s, v ≠ .str s) ∧ v ≠ .null ∧
        ∃ k, (k = "iterateOn" ∨ (k = "iterate" ∧ NotGiven m "iterateOn")) ∧ m.get? k = some v
  delay : match L.delay with
    | none => NotGiven m "delay"
    | some n => m.get? "delay" = some (.int n)
  accumulate : m.get? "accumulate" = L.accumulate.map .bool

/-- All expressions of the settings compile. -/
def Compiles (env : SerEnv) (L : LoopSettings) : Prop :=
  (∀ e, L.condition = some e → env.newExpr e = none) ∧ (∀ e, L.over = some (.expr e) → env.newExpr e = none)

/-- The loop a user expects: none without a condition and something to iterate on, no delay unless one is given,
no accumulation unless asked for. -/
def expectedLoop (L : LoopSettings) (apply : Bool) : Option LoopConf :=
  if L.condition = none ∧ L.over.isNone then none
  else some
    { condition := L.condition
      iterateOn := L.over.map fun o => match o with
        | .expr s => .expr s
        | .const v => .const v
      delay := L.delay.getD 0
      accumulate := L.accumulate.getD false
      applyOutput := apply }

/-! ### Retry settings -/

/-- A number of the retry settings, as a user writes it: left out, a number, a number as text, or an expression. -/
inductive Amount
  | missing
  | number (n : Int)
  | text (s : String) (n : Int)
  | expr (s : String)

/-- The setting `k` says this. -/
def SaysAmount (env : SerEnv) (m : AMap String Val) (k : String) : Amount → Prop
  | .missing => NotGiven m k
  | .number n => m.get? k = some (.int n)
  | .text s n => m.get? k = some (.str s) ∧ (∀ r, s.toList ≠ '=' :: r) ∧ env.toInt (.str s) = .ok n
  | .expr s => m.get? k = some (.str ("=" ++ s)) ∧ env.newExpr s = none

/-- The number it stands for when expressions have the values `ev`. -/
def Amount.value (env : SerEnv) (ev : String → Except String Val) : Amount → Except String Int
  | .missing => .ok 0
  | .number n => .ok n
  | .text _ n => .ok n
  | .expr s => (ev s).bind env.toInt

/-- A setting that is no number: text that cannot be read as a number, an expression that does not compile, or another value
that is no number. -/
def NoAmount (env : SerEnv) (m : AMap String Val) (k : String) : Prop :=
  (∃ s, m.get? k = some (.str ("=" ++ s)) ∧ env.newExpr s ≠ none) ∨
  ∃ v, m.get? k = some v ∧ v ≠ .null ∧ (∀ s, v ≠ .str ("=" ++ s)) ∧ ∀ n, env.toInt v ≠ .ok n

end Flow.Spec
