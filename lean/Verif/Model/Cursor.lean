import Verif.Model.Py
/-!
# Model of `Cursor` in `postgresql/driver/pq3.py`

The server's part is what PostgreSQL documents for FETCH and MOVE: a cursor over `n` rows stands at a position between 0 (before the first row) and `n + 1` (after the last). What is not modelled: decoding of rows (see the
models of types), errors of the server, the count that `seek` returns; the values callers pass are in `CursorArgs`.
-/
namespace PG.Cursor
open PG
variable {α : Type}

/-- The rows, the position on the server, and the `direction` property. -/
structure Cur (α : Type) where
  rows : List α
  pos : Nat
  dir : Bool
  deriving DecidableEq, Repr

/-- FETCH or MOVE FORWARD by a number that is not negative. -/
def forward (c : Cur α) (n : Nat) : List α × Cur α :=
  ((c.rows.drop c.pos).take n, { c with pos := if c.pos + n ≤ c.rows.length then c.pos + n else c.rows.length + 1 })

/-- FETCH or MOVE BACKWARD by a number that is not negative. -/
def backward (c : Cur α) (n : Nat) : List α × Cur α :=
  ((c.rows.take (c.pos - 1)).reverse.take n, { c with pos := if n < c.pos then c.pos - n else 0 })

/-- FETCH or MOVE in a direction; `none` is ALL; a negative number turns the direction round. -/
def go (c : Cur α) (dir : Bool) (quantity : Option Int) : List α × Cur α :=
  match quantity with
  | none => if dir then forward c (c.rows.length + 1) else backward c (c.rows.length + 1)
  | some n => if dir == decide (0 ≤ n) then forward c n.natAbs else backward c n.natAbs

/-- MOVE ABSOLUTE. -/
def moveAbsolute (c : Cur α) (n : Int) : Cur α :=
  { c with pos := if 0 ≤ n then (if n.toNat ≤ c.rows.length then n.toNat else c.rows.length + 1) else (if n.natAbs ≤ c.rows.length then c.rows.length + 1 - n.natAbs else 0) }

/-- MOVE LAST: ABSOLUTE -1. -/
def moveLast (c : Cur α) : Cur α := moveAbsolute c (-1)

/-- pq3.py:1093-1099 `_which_way`; the argument is what `direction_to_bool` (107-113) gives. -/
def whichWay (self : Bool) : Option Bool → Bool
  | some d => !((!self) ^^ (!d))
  | none => self

/-- pq3.py:1143-1158 `read` and `_fetch` (715-729 `_pq_xp_fetch`). -/
def read (c : Cur α) (quantity : Option Int) (direction : Option Bool) : List α × Cur α :=
  if quantity = some 0 then ([], c) else go c (whichWay c.dir direction) quantity

/-- pq3.py:1136-1141 `__next__`; `none` is StopIteration. -/
def next (c : Cur α) : Option α × Cur α := ((go c c.dir (some 1)).1.head?, (go c c.dir (some 1)).2)

/-- `whence`. -/
inductive Whence where
  | absolute
  | relative
  | fromEnd
  | forward
  | backward
  deriving DecidableEq, Repr

/-- pq3.py:1173-1175: a negative BACKWARD is a FORWARD. -/
def turned (offset : Int) (w : Whence) : Int × Whence := if offset < 0 ∧ w = .backward then (-offset, .forward) else (offset, w)

/-- pq3.py:1177-1186: what the direction of the cursor makes of it. -/
def directed (dir : Bool) (offset : Int) (w : Whence) : Int × Whence :=
  if dir then (offset, w)
  else
    match w with
    | .relative => (-offset, w)
    | .absolute => (offset, .fromEnd)
    | _ => (offset, .absolute)

/-- pq3.py:1188-1209: the commands. -/
def moved (c : Cur α) (offset : Int) : Whence → Cur α
  | .relative => if offset < 0 then (go c false (some (-offset))).2 else (go c true (some offset)).2
  | .forward => if offset < 0 then (go c false (some (-offset))).2 else (go c true (some offset)).2
  | .backward => if offset < 0 then (go c false (some (-offset))).2 else (go c false (some offset)).2
  | .absolute => moveAbsolute c offset
  | .fromEnd => (go (go (moveLast c) true (some 1)).2 false (some offset)).2

/-- pq3.py:1160-1225 `seek` with a number. -/
def seek (c : Cur α) (offset : Int) (w : Whence) : Cur α :=
  moved c (directed c.dir (turned offset w).1 (turned offset w).2).1 (directed c.dir (turned offset w).1 (turned offset w).2).2

/-- pq3.py:1169-1171, 1189-1192: `seek('ALL', whence)`. -/
def seekAll (c : Cur α) : Whence → Cur α
  | .forward => (go c true none).2
  | .backward => (go c false none).2
  | _ => (go c c.dir none).2

/-- What is called on a cursor. -/
inductive Op where
  | read (quantity : Option Int) (direction : Option Bool)
  | next
  | seek (offset : Int) (w : Whence)
  | seekAll (w : Whence)
  deriving DecidableEq, Repr

/-- One call; the rows it returns. -/
def step (c : Cur α) : Op → List α × Cur α
  | .read q d => Cursor.read c q d
  | .next => ((Cursor.next c).1.toList, (Cursor.next c).2)
  | .seek o w => ([], Cursor.seek c o w)
  | .seekAll w => ([], Cursor.seekAll c w)

/-- All calls. -/
def run (c : Cur α) : List Op → List (List α) × Cur α
  | [] => ([], c)
  | o :: os => ((step c o).1 :: (run (step c o).2 os).1, (run (step c o).2 os).2)

end PG.Cursor
