import Verif.Model.Installation
/-!
# Where in the statement the server found the error: the LINE of a statement's description (postgresql/driver/pq3.py)

`os.linesep` is `\n`.
-/
namespace PG.Marker
open PG PG.PyStr PG.Installation

/-- `q.rfind('\n', 0, pos)`: the last one in front of `pos`. -/
def rfindIn (c : Char) (s : Str) (pos : Nat) : Option Nat :=
  match (s.take pos).reverse.findIdx? (· = c) with
  | none => none
  | some i => some ((s.take pos).length - 1 - i)

/-- `' [line %d, character %d] ' % (...)` (pq3.py:1300). -/
def where_ (line character : Nat) : Str := " [line ".toList ++ Nat.toDigits 10 line ++ ", character ".toList ++ Nat.toDigits 10 character ++ "] ".toList

/-- pq3.py:1285: `q.rfind('\n', 0, pos) + 1`. -/
def lineStart (q : Str) (pos : Nat) : Nat :=
  match rfindIn '\n' q pos with
  | some i => i + 1
  | none => 0

/-- pq3.py:1287-1289: `q.find('\n', pos)`, or the end. -/
def lineEnd (q : Str) (pos : Nat) : Nat :=
  match find '\n' q pos with
  | some i => i
  | none => q.length

/-- pq3.py:1273-1304: the part of the statement's description that shows the place; `pos` is what the server sent. -/
def lineMeta (q : Str) (pos : Nat) : Str :=
  let pos := (join ['\n'] (lines (q.take pos))).length
  let q := join ['\n'] (lines q)
  let lineNo := ((q.take pos).filter (· = '\n')).length + 1
  let q := q.map fun c => if c = '\t' then ' ' else c
  let bov := lineStart q pos
  let eov := lineEnd q pos
  let view := (q.take eov).drop bov
  let pos := pos - bov
  join ['\n'] (lines view ++ [List.replicate (pos - 1) ' ' ++ '^' :: where_ lineNo pos])

/-- pq3.py:1266-1307: `(key, value)` of the description for the place; `p` is the field `P` of the error, if there is an error; `isdigit` and `int` of bytes. -/
def placeMeta (q : Str) (error : Option (Option Bytes)) : Option (Str × Str) :=
  match error with
  | some (some p) => if p ≠ [] ∧ p.all (fun b => 48 ≤ b ∧ b ≤ 57) then some ("LINE".toList, lineMeta q (p.foldl (fun n b => 10 * n + (b.toNat - 48)) 0)) else none
  | _ => none

end PG.Marker
