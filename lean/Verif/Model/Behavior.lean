import Verif.Model.Definition

/-
The decisions of `model/simple/taskbehavior.go` as pure functions on link statuses.
`Verif.Model.Instance` applies them to a flow instance.
-/

namespace Flow

/-- `model/behavior.go` lines 9-12 (`TaskEntry`). -/
structure TaskEntry where
  task : TaskRef
  enterCode : Nat
  deriving DecidableEq, Repr

/-! ### Enter -/

/-- The loop of `TaskBehavior.Enter`, taskbehavior.go lines 51-61. Returns `(ready, skipped)`; stops at the
first undecided link (`break`). -/
def enterLoop : List LinkStatus → Bool → Bool × Bool
  | [], skipped => (true, skipped)
  | s :: ss, skipped =>
    if s.code < LinkStatus.false.code then (false, skipped)
    else if s = LinkStatus.true then enterLoop ss false
    else enterLoop ss skipped

/-- `TaskBehavior.Enter`, taskbehavior.go lines 39-83, as a function of the statuses of the incoming links. -/
def enterDecision (ls : List LinkStatus) : EnterResult :=
  let rs := if ls.length = 0 then (true, false) else enterLoop ls true
  if rs.1 then (if rs.2 then .skip else .eval) else .notReady

/-! ### Enter codes and sorting -/

/-- `getEnterCode`, taskbehavior.go lines 405-442. `prio` is `FLOGO_TASK_PRIORITIZE_EXPR_LINK`. -/
def getEnterCode (prio : Bool) : LinkType → Nat
  | .dependency => 0
  | .otherwise => 2
  | .label => if prio then 1 else 3
  | .expression => if prio then 3 else 1
  | .error => 4

/-- Insert in front of the first entry with an equal or larger code. -/
def insertEntry (e : TaskEntry) : List TaskEntry → List TaskEntry
  | [] => [e]
  | x :: xs => if e.enterCode ≤ x.enterCode then e :: x :: xs else x :: insertEntry e xs

/-- `SortTaskEntries`, taskbehavior.go lines 445-449. Go's `sort.SliceStable` is modelled by a stable insertion
sort; the stable sorted permutation is unique. -/
def sortEntries : List TaskEntry → List TaskEntry
  | [] => []
  | e :: es => insertEntry e (sortEntries es)

/-! ### Done -/

/-- Outcome of evaluating a link expression (`expr.Eval` plus `coerce.ToBool`). -/
inductive ExprOut
  | ok (b : Bool)
  | err (msg : String)
  | panic (msg : String)
  deriving DecidableEq, Repr

/-- `TaskInst.EvalLink`, taskinst.go lines 267-290, for a link with an expression. A panic is recovered at line
270; since `err` is nil at that point (the test at line 274 is `err != nil`), the named results stay `false, nil`. -/
def evalLink : ExprOut → Except String Bool
  | .ok b => .ok b
  | .err m => .error m
  | .panic _ => .ok false

/-- Loop state of `TaskBehavior.Done`, taskbehavior.go lines 226-229. `rows` lists for each link handled so far
its definition, its status and the enter code of its entry. `other` is the index in `rows` of the remembered
otherwise link. -/
structure DoneAcc where
  rows : List (LinkDef × LinkStatus × Nat) := []
  followed : Bool := false
  hasExpr : Bool := false
  other : Option Nat := none
  deriving Repr

/-- One iteration of the loop of `TaskBehavior.Done`, lines 231-283. Links start as `false` with code 4
(lines 234-236). -/
def doneIter (prio : Bool) (ev : LinkDef → ExprOut) (a : DoneAcc) (l : LinkDef) : Except String DoneAcc :=
  match l.type with
  | .error => .ok { a with rows := a.rows ++ [(l, .false, 4)] }
  | .otherwise => .ok { a with rows := a.rows ++ [(l, .false, 4)], other := some a.rows.length }
  | .dependency => .ok { a with rows := a.rows ++ [(l, .true, getEnterCode prio l.type)] }
  | .label => .ok { a with rows := a.rows ++ [(l, .true, getEnterCode prio l.type)] }
  | .expression =>
    match evalLink (ev l) with
    | .error m => .error m
    | .ok true =>
      .ok { a with rows := a.rows ++ [(l, .true, getEnterCode prio l.type)], hasExpr := true, followed := true }
    | .ok false => .ok { a with rows := a.rows ++ [(l, .false, 4)], hasExpr := true }

/-- The loop; the first failing expression aborts it (lines 266-273). The error carries the rows handled so far,
whose link statuses have been set already. -/
def doneLoop (prio : Bool) (ev : LinkDef → ExprOut) : DoneAcc → List LinkDef →
    Except (String × DoneAcc) DoneAcc
  | a, [] => .ok a
  | a, l :: ls =>
    match doneIter prio ev a l with
    | .error m => .error (m, { a with rows := a.rows ++ [(l, .false, 4)], hasExpr := true })
    | .ok a' => doneLoop prio ev a' ls

/-- The otherwise step, lines 286-293. -/
def doneOtherwise (prio : Bool) (a : DoneAcc) : List (LinkDef × LinkStatus × Nat) :=
  match a.other with
  | some i =>
    if a.hasExpr && !a.followed then
      a.rows.modify i (fun r => (r.1, .true, getEnterCode prio r.1.type))
    else a.rows
  | none => a.rows

/-- `TaskBehavior.Done`, lines 225-298, on the list of outgoing links: the final rows, or the error and the rows
set before it. -/
def doneRows (prio : Bool) (ev : LinkDef → ExprOut) (ls : List LinkDef) :
    Except (String × List (LinkDef × LinkStatus × Nat)) (List (LinkDef × LinkStatus × Nat)) :=
  match doneLoop prio ev {} ls with
  | .error (m, a) => .error (m, a.rows)
  | .ok a => .ok (doneOtherwise prio a)

/-! ### Skip and Error -/

/-- `TaskBehavior.Skip`, lines 330-334. The third result of `Skip` is not modelled here: the named result
`propagateSkip` (line 309) shadows the package variable, so it is always `false`. -/
def skipRows (ls : List LinkDef) : List (LinkDef × LinkStatus × Nat) :=
  ls.map (fun l => (l, .skipped, 4))

/-- `TaskBehavior.Error`, lines 347-389: `none` if there is no error link, otherwise the rows. -/
def errorRows (ls : List LinkDef) : Option (List (LinkDef × LinkStatus × Nat)) :=
  if ls.any (fun l => l.type = .error) then
    some (ls.map (fun l => if l.type = .error then (l, .true, 0) else (l, .false, 4)))
  else none

/-- Entries of the rows, in link order: `TaskEntry{Task: link.ToTask(), EnterCode: code}`. -/
def rowEntries (eh : Bool) (rows : List (LinkDef × LinkStatus × Nat)) : List TaskEntry :=
  rows.map (fun r => ⟨⟨eh, r.1.dst⟩, r.2.2⟩)

end Flow
