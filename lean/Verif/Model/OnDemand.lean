import Verif.Model.Recording
import Verif.Model.DefinitionSer

/-
The on-demand action, `ondemand/action.go` lines 170-277: a flow that is delivered with the event, built and run.

Not modelled: concurrent task execution (lines 236-241), logging, and `Initialize`.
-/

namespace Flow

/-- `FlowPackage`, ondemand/action.go lines 44-48. The declared inputs and outputs of the flow (its metadata) are not part
of `Ser.DefRep`; they are given here. -/
structure FlowPackage where
  mappings : AMap String Val := []
  flow : Ser.DefRep
  inputs : AMap String Val := []
  hasOutputs : Bool := false
  outputs : AMap String Val := []

/-- Mappings of the core library: `NewMapper` may fail, `Apply` returns values and perhaps an error. -/
structure MapEnv where
  newMapper : AMap String Val → Option String
  apply : AMap String Val → AMap String Val → AMap String Val × Option String

/-- `ApplyMappings`, lines 279-293: the error of `Apply` is dropped (line 290). -/
def applyMappings (env : MapEnv) (mappings inputs : AMap String Val) : Except String (AMap String Val) :=
  match env.newMapper mappings with
  | some m => .error m
  | none => .ok (env.apply mappings inputs).1

/-- One call of `HandleResult`. `method` is the call of lines 229-233, whose data has the key "id"; its value is the method
`inst.ID`, not the identifier, because the method is not called. -/
inductive OdResult
  | method
  | result (r : Result)

/-- State of the goroutine of line 223; `out` are the calls of `HandleResult` by the action, newest first. The field
`run.results` is not used. `died` says that the process has ended with a panic that nothing recovers from. -/
structure Od where
  run : Run
  out : List OdResult := []
  died : Bool := false

namespace Od

/-- The definition that is run. -/
def defOf (p : FlowPackage) (b : Ser.BDef) : Def :=
  { b.toDef with inputs := p.inputs, hasOutputs := p.hasOutputs, outputs := p.outputs }

/-- `Run`, lines 170-233, up to the loop. `pkg` is the input "flowPackage": absent, not readable, or a package. The model
of a definition is always found. -/
def begin (senv : Ser.SerEnv) (menv : MapEnv) (env : Env) (id : String) (pkg : Option (Except String FlowPackage))
    (inputs : AMap String Val) : Except String Od :=
  match pkg with
  | none => .error "flow package not provided"
  | some (.error m) => .error m
  | some (.ok p) =>
    match Ser.newDefinition senv p.flow with
    | .error m => .error m
    | .ok b =>
      match applyMappings menv p.mappings inputs with
      | .error m => .error m
      | .ok ins => .ok
        { run := { eng := Eng.init env id "" (defOf p b) ins, count := 0 }
          out := if b.explicitReply then [] else [.method] }

/-- Lines 251-253: the limit is reported, and the function goes on. -/
def limitResults (limit : Int) (r : Run) (s : FlowStatus) : List OdResult :=
  if r.count = limit ∧ s ≠ .completed then [.result ⟨none, some (limitErr r.eng.id limit)⟩] else []

/-- Lines 251-265: the calls of `HandleResult` after the loop, newest first. -/
def finalResults (limit : Int) (r : Run) (I : Inst) : List OdResult :=
  match I.status with
  | .completed => .result ⟨I.fixReturnData.returnData, I.fixReturnData.returnError⟩ :: limitResults limit r I.status
  | .failed => .result ⟨none, I.returnError⟩ :: limitResults limit r I.status
  | _ => limitResults limit r I.status

/-- After the loop. That `GetReturnData` stores the return data in the instance is left out; nothing reads it any more. -/
def report (limit : Int) (s : Od) : Od :=
  match s.run.eng.insts[0]? with
  | none => { s with run := { s.run with done := true } }
  | some I => { s with run := { s.run with done := true }, out := finalResults limit s.run I ++ s.out }

/-- One micro step of the loop, lines 242-253, or the report. The instance has no recorder (line 208). -/
def step (env : Env) (limit : Int) (s : Od) : Od :=
  if s.run.done || s.died then s
  else
    match s.run.eng.stack with
    | _ :: _ => { s with run := { s.run with eng := (s.run.eng.stepUntaped env).1 } }
    | [] =>
      match s.run.eng.insts[0]? with
      | none => s.report limit
      | some I =>
        if s.run.goesOn { limit := limit } I.status then
          { s with run := { s.run with eng := (s.run.eng.stepUntaped env).1, count := s.run.count + 1
                                       hasWork := I.status == .active && !s.run.eng.queue.isEmpty }
                   died := (s.run.eng.stepUntaped env).2 }
        else s.report limit

/-- The states of an on-demand run. -/
def after (env : Env) (limit : Int) (s : Od) : Nat → Od
  | 0 => s
  | n + 1 => step env limit (after env limit s n)

end Od
end Flow
