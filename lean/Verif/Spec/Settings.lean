import Verif.Model.Settings

/- What the settings of the environment mean, independently of package variables. -/

namespace Flow.Spec.Settings
open Flow.Settings

/-- The environment variable of a setting. -/
def varOf : Name → String
  | .user => "FLOGO_APP_USERNAME"
  | .host => "FLOGO_HOST_NAME"
  | .app => "FLOGO_APP_NAME"
  | .version => "FLOGO_APP_VERSION"

/-- What is reported if the variable says nothing. -/
def fallback (w : World) : Name → String
  | .user => "flogo"
  | .host => w.host
  | .app => w.engineName
  | .version => w.engineVersion

/-- What the variable says at a moment: nothing if it is not set or empty. -/
def says (w : World) (n : Name) : Option String :=
  match w.vars (varOf n) with
  | none => none
  | some s => if s = "" then none else some s

/-- What the variable said when the setting was asked for the first time at a moment when it said something. -/
def first (h : List (World × Name)) (n : Name) : Option String :=
  h.findSome? (fun x => if x.2 = n then says x.1 n else none)

/-- The last digit of a number, as a character. -/
def digit (n : Nat) : Char := Char.ofNat ('0'.toNat + n % 10)

/-- The decimal digits of a number. -/
def digits (n : Nat) : List Char :=
  if n < 10 then [digit n] else digits (n / 10) ++ [digit n]
termination_by n
decreasing_by omega

/-- The decimal text of an integer. -/
def decimal : Int → String
  | .ofNat n => String.ofList (digits n)
  | .negSucc n => String.ofList ('-' :: digits (n + 1))

/-- A text that is a decimal number: an optional sign followed by digits, at least one. -/
def IsNumber (s : String) : Prop :=
  ∃ sign cs, s.toList = sign ++ cs ∧ (sign = [] ∨ sign = ['+'] ∨ sign = ['-']) ∧ cs ≠ [] ∧ ∀ c ∈ cs, '0' ≤ c ∧ c ≤ '9'

/-- The number that a sequence of digits denotes: every digit times its power of ten. -/
def worth : List Char → Nat
  | [] => 0
  | c :: cs => (c.toNat - '0'.toNat) * 10 ^ cs.length + worth cs

/-- The text is a sign, or none, followed by digits, and denotes `i`. -/
def Denotes (s : String) (i : Int) : Prop :=
  ∃ cs : List Char, cs ≠ [] ∧ (∀ c ∈ cs, '0' ≤ c ∧ c ≤ '9') ∧
    (((s.toList = cs ∨ s.toList = '+' :: cs) ∧ i = (worth cs : Int)) ∨ (s.toList = '-' :: cs ∧ i = -(worth cs : Int)))

end Flow.Spec.Settings
