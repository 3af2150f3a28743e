import Verif.Model.Basic

/-
Iterators of `model/simple/iteratorbehavior.go`.
-/

namespace Flow

/-- The four iterator kinds, iteratorbehavior.go lines 207-359. `obj` holds the key list built at lines 313-319
(`keyMap`, an arbitrary order of the keys of the Go map) and the data. -/
inductive IterData
  | int (count : Int)
  | arr (l : List Val)
  | obj (keys : List String) (data : AMap String Val)
  | refl (l : List Val)
  deriving Repr, Inhabited

/-- An iterator: data and `current`, which starts at -1 (lines 240, 276, 321, 358). -/
structure Iter where
  data : IterData
  current : Int := -1
  deriving Repr, Inhabited

/-- The bound compared with in `HasNext` and `next`: lines 221, 233, 257, 269, 295, 303, 339, 347. -/
def Iter.bound (x : Iter) : Int :=
  match x.data with
  | .int c => c
  | .arr l => l.length
  | .obj _ m => m.length
  | .refl l => l.length

/-- `HasNext`, lines 220-225, 256-261, 294-299, 338-343. -/
def Iter.hasNext (x : Iter) : Bool := if x.bound ≤ x.current then false else true

/-- `next`, lines 231-237 and its copies: advances and reports whether the new position is valid. -/
def Iter.next (x : Iter) : Iter × Bool :=
  let y := { x with current := x.current + 1 }
  (y, if y.bound ≤ y.current then false else true)

/-- `Key`, lines 212-214, 248-250, 285-287, 329-331. A missing key of the Go map `keyMap` reads as "". -/
def Iter.key (x : Iter) : Val :=
  match x.data with
  | .obj ks _ => .str ((ks[x.current.toNat]?).getD "")
  | _ => .int x.current

/-- `Value`, lines 216-218, 252-254, 289-292, 333-336. `none` models the Go panic on an index out of range; a missing
entry of a Go map reads as nil. -/
def Iter.value (x : Iter) : Option Val :=
  match x.data with
  | .int _ => some (.int x.current)
  | .arr l => if x.current < 0 then none else l[x.current.toNat]?
  | .refl l => if x.current < 0 then none else l[x.current.toNat]?
  | .obj ks m => some ((m.get? ((ks[x.current.toNat]?).getD "")).getD .null)

/-- Choice of the iterator for the value to iterate on, iteratorbehavior.go lines 61-99. `none` means that there is
nothing to iterate on (nil, lines 61-65). `toInt` is `coerce.ToInt` on strings, `order` the key order of the Go map.
Simplification: numbers are integers (`int`, `int64`, `float64` with the conversion already applied). -/
def mkIter (toInt : String → Option Int) (order : AMap String Val → List String) (taskName : String) :
    Val → Except Err (Option Iter)
  | .null => .ok none
  | .str s =>
    match toInt s with
    | some n => .ok (some { data := .int n })
    | none => .error (.plain ("iterator '" ++ taskName ++ "' not properly configured. '" ++ s ++
        "' is not a valid iterate value"))
  | .int n => .ok (some { data := .int n })
  | .obj m => .ok (some { data := .obj (order m) m })
  | .arr l => .ok (some { data := .arr l })
  | .slice l => .ok (some { data := .refl l })
  | .bool _ => .error (.plain ("iterator '" ++ taskName ++ "' not properly configured."))

end Flow
