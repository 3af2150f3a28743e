import Verif.Model.Run

/-
The settings that are read from the environment of the process: support/env.go and util/util.go, and the places that use them.
Not modelled: that the package variables are read and written without synchronisation. `coerce.ToBool` and the fallbacks
(`os.Hostname`, the name and version of the engine) are in other modules: they are parameters.
-/

namespace Flow

namespace Settings

/-- What a process finds outside itself at one moment: the environment variables (`none`: not set), the name of the host
(`os.Hostname`, support/env.go line 45) and the name and version known to the engine (lines 55 and 66). -/
structure World where
  vars : String → Option String
  host : String
  engineName : String
  engineVersion : String

/-- The package variables of support/env.go line 23. -/
structure Cache where
  username : String := ""
  hostName : String := ""
  appName : String := ""
  appVersion : String := ""

/-- `os.Getenv`: the empty text if the variable is not set. -/
def World.getenv (w : World) (k : String) : String := (w.vars k).getD ""

/-- `GetUserName`, support/env.go lines 25-34. -/
def getUserName (c : Cache) (w : World) : Cache × String :=
  if c.username.length > 0 then (c, c.username)
  else
    let c1 := { c with username := w.getenv "FLOGO_APP_USERNAME" }
    if c1.username.length > 0 then (c1, c1.username) else (c1, "flogo")

/-- `GetHostId`, support/env.go lines 36-46. -/
def getHostId (c : Cache) (w : World) : Cache × String :=
  if c.hostName.length > 0 then (c, c.hostName)
  else
    let c1 := { c with hostName := w.getenv "FLOGO_HOST_NAME" }
    if c1.hostName.length > 0 then (c1, c1.hostName) else (c1, w.host)

/-- `GetAppName`, support/env.go lines 48-57. -/
def getAppName (c : Cache) (w : World) : Cache × String :=
  if c.appName.length > 0 then (c, c.appName)
  else
    let c1 := { c with appName := w.getenv "FLOGO_APP_NAME" }
    if c1.appName.length = 0 then (c1, w.engineName) else (c1, c1.appName)

/-- `GetAppVerison`, support/env.go lines 59-68. -/
def getAppVersion (c : Cache) (w : World) : Cache × String :=
  if c.appVersion.length > 0 then (c, c.appVersion)
  else
    let c1 := { c with appVersion := w.getenv "FLOGO_APP_VERSION" }
    if c1.appVersion.length = 0 then (c1, w.engineVersion) else (c1, c1.appVersion)

/-- `GetPropagateSkip`, support/env.go lines 70-80; `toBool` is `coerce.ToBool` on a text, `none` its error. -/
def getPropagateSkip (toBool : String → Option Bool) (w : World) : Bool :=
  match w.vars "FLOGO_TASK_PROPAGATE_SKIP" with
  | none => true
  | some v =>
    match toBool v with
    | none => true
    | some b => b

/-- `GetPrioritizeExprTask`, support/env.go lines 82-92. -/
def getPrioritizeExprTask (toBool : String → Option Bool) (w : World) : Bool :=
  match w.vars "FLOGO_TASK_PRIORITIZE_EXPR_LINK" with
  | none => false
  | some v =>
    match toBool v with
    | none => false
    | some b => b

/-- The loop of `strconv.Atoi` over the digits. -/
def atoiDigits : List Char → Nat → Option Nat
  | [], n => some n
  | c :: cs, n => if '0' ≤ c ∧ c ≤ '9' then atoiDigits cs (n * 10 + (c.toNat - '0'.toNat)) else none

/-- An unsigned decimal number: at least one digit. -/
def atoiNat : List Char → Option Nat
  | [] => none
  | c :: cs => atoiDigits (c :: cs) 0

/-- `strconv.Atoi` of Go on a machine with 64 bits: an optional sign and decimal digits, within the range of `int`. -/
def atoi (s : String) : Option Int :=
  match s.toList with
  | '-' :: cs =>
    match atoiNat cs with
    | none => none
    | some n => if n ≤ 2 ^ 63 then some (-(n : Int)) else none
  | '+' :: cs =>
    match atoiNat cs with
    | none => none
    | some n => if n < 2 ^ 63 then some (n : Int) else none
  | cs =>
    match atoiNat cs with
    | none => none
    | some n => if n < 2 ^ 63 then some (n : Int) else none

/-- `GetMaxStepCount`, util/util.go lines 27-38. -/
def getMaxStepCount (w : World) : Int :=
  match w.vars "FLOGO_MAX_STEP_COUNT" with
  | none => 10000000
  | some v =>
    match atoi v with
    | some i => i
    | none => 10000000

/-- Which setting is asked for. -/
inductive Name
  | user | host | app | version
deriving DecidableEq, Repr

/-- One call of one of the four functions. -/
def ask (c : Cache) (w : World) : Name → Cache × String
  | .user => getUserName c w
  | .host => getHostId c w
  | .app => getAppName c w
  | .version => getAppVersion c w

/-- The answers to a sequence of calls, each made at its own moment, in a process whose package variables are `c`. -/
def answers : Cache → List (World × Name) → List String
  | _, [] => []
  | c, (w, n) :: h => (ask c w n).2 :: answers (ask c w n).1 h

/-- The part of `GetFlowState` that is read from the environment, ind_instance.go lines 147-150. -/
structure Identity where
  userId : String
  appName : String
  appVersion : String
  hostId : String
deriving DecidableEq, Repr

/-- `GetFlowState`, ind_instance.go lines 143-159, as far as the settings are concerned. -/
def flowState (c : Cache) (w : World) : Cache × Identity :=
  let u := getUserName c w
  let a := getAppName u.1 w
  let v := getAppVersion a.1 w
  let h := getHostId v.1 w
  (h.1, ⟨u.2, a.2, v.2, h.2⟩)

/-- The values of `_fctx.AppName` and `_fctx.AppVersion` of a flow that is started, ind_instance.go lines 180-181. -/
def startAttrs (c : Cache) (w : World) : Cache × String × String :=
  let a := getAppName c w
  let v := getAppVersion a.1 w
  (v.1, a.2, v.2)

/-- The limit of a run without concurrent task execution: the package variable of action.go line 45 and ondemand/action.go
line 60, which is set when the program is loaded. -/
def limitPlain (load _now : World) : Int := getMaxStepCount load

/-- The limit of a run with concurrent task execution, which is read before every step: ind_instance.go line 347. -/
def limitConcurrent (_load now : World) : Int := getMaxStepCount now

end Settings

end Flow
