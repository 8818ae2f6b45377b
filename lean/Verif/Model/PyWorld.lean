import Verif.Model.Convert
import Verif.Model.PgArray
/-!
# Python's values as the driver sees them (a world for `PG.Convert`): lists, tuples and rows, `Array` objects, and other objects

The `Array` class is the one of `PG.PgArray`.  Simplified: a `dict` or an `Array` given for a composite is left out; `repr` of a list or an array is not spelled out; `Array` objects inside lists are elements.
-/
namespace PG.PyWorld
open PG PG.PgArray PG.Convert

/-- A value; `None` is `none`.  An `Array` has elements, lower bounds, dimensions (types/__init__.py:366-372). -/
inductive PV (β : Type) where
  | atom (b : β)
  | list (l : List (Option (PV β)))
  | tuple (l : List (Option (PV β)))
  | array (elements : List (Option (PV β))) (lower : List Int) (dims : List Nat)

variable {β : Type}

mutual
/-- As an item of a nested list. -/
def toV : PV β → V (Option (PV β))
  | .atom b => .atom (some (.atom b))
  | .list l => .list (toVs l)
  | .tuple l => .tuple (toVs l)
  | .array e l d => .atom (some (.array e l d))
/-- The items, in order. -/
def toVs : List (Option (PV β)) → List (V (Option (PV β)))
  | [] => []
  | none :: l => .atom none :: toVs l
  | some x :: l => toV x :: toVs l
end

mutual
/-- As an element again. -/
def ofV : V (Option (PV β)) → Option (PV β)
  | .atom x => x
  | .list l => some (.list (ofVs l))
  | .tuple l => some (.tuple (ofVs l))
/-- The items, in order. -/
def ofVs : List (V (Option (PV β))) → List (Option (PV β))
  | [] => []
  | x :: l => ofV x :: ofVs l
end

/-- pq3.py:359-365 `array_from_parts`. -/
def fromParts (es : List (Option (PV β))) (dims lbs : List Int) : Except Err (PV β) :=
  match arrayFromParts (es.map V.atom) dims lbs with
  | .error e => .error e
  | .ok a => .ok (.array es a.lower a.dims)

/-- pq3.py:349-357 `array_parts`; types/__init__.py:385-399 `Array(...)`.  There are only `Array`s that `from_elements` makes. -/
def parts : PV β → Except Err (List (Option (PV β)) × List Int × List Int)
  | .atom _ => .error .typeError
  | .array es lower dims =>
    match arrayFromParts (es.map V.atom) (dims.map Int.ofNat) lower with
    | .error e => .error e
    | .ok a => .ok (es, a.dims.map Int.ofNat, a.lower)
  | .list l => match fromNest (toVs l) with
    | .error e => .error e
    | .ok a => .ok (a.elements.map ofV, a.dims.map Int.ofNat, a.lower)
  | .tuple l => match fromNest (toVs l) with
    | .error e => .error e
    | .ok a => .ok (a.elements.map ofV, a.dims.map Int.ofNat, a.lower)

/-- pq3.py:466-472: `tuple(data)`. -/
def attrs (_ : List Str) : PV β → Except Err (List (Option (PV β)))
  | .list l => .ok l
  | .tuple l => .ok l
  | _ => .error .typeError

/-- The world, with text for the objects. -/
def world (repr : PV β → Str) (encode : PV β → Except Err Bytes) (decode : Bytes → Except Err (PV β)) : World (PV β) :=
  { repr, encode, decode, attrs, parts, fromParts, row := fun _ xs => .tuple xs }

end PG.PyWorld
