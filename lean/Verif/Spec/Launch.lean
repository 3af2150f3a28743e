import Verif.Model.Launch

/-
Specification of what a run is started with, independent of how the action proceeds.
-/

namespace Flow.Spec

open Launch

/-- The identifier of a resource. -/
def IsResource (uri : String) : Prop := "res://".toList <+: uri.toList

/-- The flow with this identifier: a resource, or a flow of the flow manager. -/
def Known (w : World) (uri : String) (d : Def) : Prop :=
  (IsResource uri ∧ w.resources uri = some d) ∨ (¬ IsResource uri ∧ w.flows uri = .ok (some d))

/-- The inputs supplied by the caller: every input with a value except the run options. -/
def Supplied (inputs : AMap String Arg) (k : String) (v : Val) : Prop := k ≠ "_run_options" ∧ inputs.get? k = some (.val v)

/-- The flow that is asked for: the one named in the options, else the one of the action. -/
def Asked (a : Action) (o : Options) (uri : String) : Prop := (o.uri ≠ "" ∧ uri = o.uri) ∨ (o.uri = "" ∧ uri = a.uri)

/-- The identifier that is asked for: the preserved one, else a new one. -/
def Named (w : World) (o : Options) (id : String) : Prop :=
  (o.preservedId ≠ "" ∧ id = o.preservedId) ∨ (o.preservedId = "" ∧ id = w.nextId)

/-- Attribute `k` of a flow that was started with the given inputs: the supplied value, else the declared default, else the
identifier of the event under its name; `other` stands for the context of the flow. -/
def FirstValue (supplied : String → Option Val) (declared : AMap String Val) (event : String) (other : Option Val) (k : String) : Option Val :=
  ((supplied k).or (declared.get? k)).or (if k = "event.id" then (if event = "" then none else some (.str event)) else other)

/-- The action is created for the flow `uri`. -/
def ForFlow (w : World) (uri : String) (a : Action) : Prop := w.newAction uri = .ok a

/-- The event of a task: `own` and `top` are the attribute `event.id` of its flow instance and of the top-level instance. Only text
identifies an event. -/
def CallerEvent (own top : Option Val) (s : String) : Prop :=
  own = some (.str s) ∨ (own = none ∧ top = some (.str s)) ∨
    (s = "" ∧ (∀ t, own ≠ some (.str t)) ∧ (own = none → ∀ t, top ≠ some (.str t)))

end Flow.Spec
