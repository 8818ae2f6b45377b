import Verif.Model.SqlText
/-!
# The arguments of the methods of `Cursor` in `postgresql/driver/pq3.py`, as the values Python passes

`Cursor` (the model) takes directions, `whence` and offsets as already understood; here they are what a caller passes. What is sent is recorded. The server is that of the model of cursors. Simplified: a value is None, a bool, an
int, a str, a bytes or a list (other types behave as bytes or as list do); the quantity of `read` is None or an int, the offset of `seek` an int, a str or None; errors of the server are not modelled.
-/
namespace PG.CursorArgs
open PG

/-- A Python value. -/
inductive Val where
  | none
  | bool (b : Bool)
  | int (n : Int)
  | str (s : Str)
  | bytes (b : Bytes)
  | list
  deriving DecidableEq, Repr

/-- pq3.py:98-105 `direction_str_to_bool`. -/
def directionStrToBool (upper : Str → Str) (s : Str) : Except Err Bool :=
  if upper s = "FORWARD".toList then .ok true
  else if upper s = "BACKWARD".toList then .ok false
  else .error .valueError

/-- pq3.py:107-113 `direction_to_bool`: only the objects True and False, no other numbers. -/
def directionToBool (upper : Str → Str) : Val → Except Err Bool
  | .str s => directionStrToBool upper s
  | .bool b => .ok b
  | _ => .error .typeError

/-- api.py:223-229 `_seek_whence_map`. -/
def whenceMap : Int → Option Str
  | 0 => some "ABSOLUTE".toList
  | 1 => some "RELATIVE".toList
  | 2 => some "FROM_END".toList
  | 3 => some "FORWARD".toList
  | 4 => some "BACKWARD".toList
  | _ => none

/-- pq3.py:1162-1163: `in self._seek_whence_map.values()`, and what the rest of `seek` makes of it. -/
def whenceNamed (s : Str) : Option Cursor.Whence :=
  if s = "ABSOLUTE".toList then some .absolute
  else if s = "RELATIVE".toList then some .relative
  else if s = "FROM_END".toList then some .fromEnd
  else if s = "FORWARD".toList then some .forward
  else if s = "BACKWARD".toList then some .backward
  else none

/-- pq3.py:1162-1167, of a str. -/
def whenceOfStr (upper : Str → Str) (s : Str) : Except Err Cursor.Whence :=
  match whenceNamed (upper s) with
  | some w => .ok w
  | none => .error .typeError

/-- pq3.py:1161-1167: `.get(whence, whence)` of a number: an int has no `upper`. -/
def whenceOfInt (upper : Str → Str) (n : Int) : Except Err Cursor.Whence :=
  match whenceMap n with
  | some s => whenceOfStr upper s
  | none => .error .attributeError

/-- pq3.py:1161-1167: True and False are the keys 1 and 0; bytes have `upper`, but are not among the values; a list cannot be looked up. -/
def whenceOf (upper : Str → Str) : Val → Except Err Cursor.Whence
  | .none => .error .typeError
  | .bool b => whenceOfInt upper (if b then 1 else 0)
  | .int n => whenceOfInt upper n
  | .str s => whenceOfStr upper s
  | .bytes _ => .error .typeError
  | .list => .error .typeError

/-- The offset given to `seek`. -/
inductive Offset where
  | none
  | int (n : Int)
  | str (s : Str)
  deriving DecidableEq, Repr

/-- The cursor on the server, the property, and the commands sent so far. -/
structure State (α : Type) where
  cur : Cursor.Cur α
  id : Str
  sent : List Str
  deriving DecidableEq, Repr

variable {α : Type}

/-- What a call gives: rows (empty for `seek` and the setter), or an exception. -/
abbrev Result (α : Type) := Except Err (List α) × State α

/-- pq3.py:1085-1086 `set_direction`. -/
def setDirection (upper : Str → Str) (s : State α) (v : Val) : Result α :=
  match directionToBool upper v with
  | .error e => (.error e, s)
  | .ok b => (.ok [], { s with cur := { s.cur with dir := b } })

/-- pq3.py:1093-1095: the direction given to `read`. -/
def givenDirection (upper : Str → Str) : Val → Except Err (Option Bool)
  | .none => .ok none
  | v => (directionToBool upper v).map some

/-- pq3.py:1143-1158 `read`. -/
def read (upper : Str → Str) (s : State α) (quantity : Option Int) (direction : Val) : Result α :=
  if quantity = some 0 then (.ok [], s)
  else
    match givenDirection upper direction with
    | .error e => (.error e, s)
    | .ok d => (.ok (Cursor.read s.cur quantity d).1, { s with cur := (Cursor.read s.cur quantity d).2, sent := s.sent ++ SqlText.readCommands s.id s.cur.dir quantity d })

/-- pq3.py:1136-1141 `__next__`. -/
def next (s : State α) : Result α :=
  (match (Cursor.next s.cur).1 with
    | some x => .ok [x]
    | none => .error .stopIteration,
   { s with cur := (Cursor.next s.cur).2, sent := s.sent ++ [SqlText.fetchText s.id s.cur.dir (some 1)] })

/-- pq3.py:1160-1225 `seek`: `whence` is looked at before the offset; a str other than 'ALL', or None, cannot be compared with 0. -/
def seek (upper : Str → Str) (s : State α) (offset : Offset) (whence : Val) : Result α :=
  match whenceOf upper whence with
  | .error e => (.error e, s)
  | .ok w =>
    match offset with
    | .none => (.error .typeError, s)
    | .str t =>
      if t = "ALL".toList then (.ok [], { s with cur := Cursor.seekAll s.cur w, sent := s.sent ++ [SqlText.seekAllText s.id s.cur.dir w] })
      else (.error .typeError, s)
    | .int n => (.ok [], { s with cur := Cursor.seek s.cur n w, sent := s.sent ++ SqlText.seekCommands s.id s.cur.dir n w })

/-- What is called on a cursor. -/
inductive Call where
  | setDirection (v : Val)
  | read (quantity : Option Int) (direction : Val)
  | next
  | seek (offset : Offset) (whence : Val)
  deriving DecidableEq, Repr

/-- One call. -/
def call (upper : Str → Str) (s : State α) : Call → Result α
  | .setDirection v => setDirection upper s v
  | .read q d => read upper s q d
  | .next => next s
  | .seek o w => seek upper s o w

/-- All calls, whatever they raise (the caller catches it). -/
def calls (upper : Str → Str) (s : State α) : List Call → List (Except Err (List α)) × State α
  | [] => ([], s)
  | c :: cs => ((call upper s c).1 :: (calls upper (call upper s c).2 cs).1, (calls upper (call upper s c).2 cs).2)

end PG.CursorArgs
