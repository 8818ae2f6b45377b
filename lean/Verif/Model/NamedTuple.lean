import Verif.Model.Row
import Verif.Model.PyDict
/-!
# Model of `postgresql/types/namedtuple.py`
-/
namespace PG.NamedTuple
open PG

/-- `str.isidentifier` and `keyword.iskeyword` of Python. -/
structure Names where
  identifier : Str → Bool
  keyword : Str → Bool

/-- `'_%d' % i`. -/
def positional (i : Nat) : Str := '_' :: Nat.toDigits 10 i

/-- What `collections.namedtuple(..., rename = True)` (Python's library) keeps of a name: no identifier, a keyword, a leading underscore are not kept. -/
def usable (P : Names) (n : Str) : Bool := P.identifier n && !P.keyword n && !("_".toList.isPrefixOf n)

/-- The loop of `collections.namedtuple(..., rename = True)`: `i` is the position, `seen` the names of the earlier positions. -/
def renameFrom (P : Names) (seen : List Str) (i : Nat) : List Str → List Str
  | [] => []
  | n :: ns => (if usable P n && !seen.contains n then n else positional i) :: renameFrom P (n :: seen) (i + 1) ns

/-- A class made by `collections.namedtuple`: `ident` is its identity. -/
structure Class where
  ident : Nat
  fields : List Str
  deriving DecidableEq

/-- The module: types/namedtuple.py:10 `cache`; `made` is the number of classes made so far. -/
structure St where
  cache : List (List Str × Class) := []
  made : Nat := 0

/-- types/namedtuple.py:17-19: `x.replace(' ', '_')`. -/
def normal (n : Str) : Str := n.map fun c => if c = ' ' then '_' else c

/-- types/namedtuple.py:13-25 `_factory`. -/
def factory (P : Names) (s : St) (colnames : List Str) : Class × St :=
  match PyDict.get (colnames.map normal) s.cache with
  | some c => (c, s)
  | none =>
    let c : Class := ⟨s.made, renameFrom P [] 0 (colnames.map normal)⟩
    (c, { cache := PyDict.set (colnames.map normal) c s.cache, made := s.made + 1 })

/-- An instance of such a class. -/
structure Inst (α : Type) where
  cls : Class
  vals : List α
  deriving DecidableEq

/-- Calling the class with a value for each field (Python's library). -/
def make {α : Type} (c : Class) (y : List α) : Except Err (Inst α) :=
  if y.length = c.fields.length then .ok ⟨c, y⟩ else .error .typeError

/-- `getattr(nt, n)` of a field (Python's library): `none` is no such field. -/
def attr {α : Type} (t : Inst α) (n : Str) : Option α := PyDict.get n (t.cls.fields.zip t.vals)

/-- types/namedtuple.py:43-44: the names of the attribute map, by position. -/
def factoryNames (attmap : List (Str × Nat)) : List Str := (Row.byPosition attmap).map Prod.fst

/-- types/namedtuple.py:27-45 `NamedTupleFactory(attribute_map)(y)`. -/
def rowOf {α : Type} (P : Names) (attmap : List (Str × Nat)) (s : St) (y : List α) : Except Err (Inst α) × St :=
  (make (factory P s (factoryNames attmap)).1 y, (factory P s (factoryNames attmap)).2)

/-- An iteration: what it delivers, and the exception that ends it, if one does. -/
structure Iter (α : Type) where
  items : List α
  stop : Option Err
  deriving DecidableEq

/-- `starmap(f, rows)`. -/
def starmap {α β : Type} (f : α → Except Err β) : List α → Option Err → Iter β
  | [], e => ⟨[], e⟩
  | x :: xs, e =>
    match f x with
    | .error e => ⟨[], some e⟩
    | .ok y => ⟨y :: (starmap f xs e).items, (starmap f xs e).stop⟩

/-- types/namedtuple.py:49-69 `namedtuples(stmt)` and the calls of what it returns: `columns` is `stmt.column_names`, `none` if the statement
yields no columns, `chunks` what the iteration of `stmt.chunks(...)` delivers. -/
def namedtuples {α : Type} (P : Names) (s : St) (columns : Option (List Str)) : Except Err (Iter (List (List α)) → Iter (Inst α)) × St :=
  match columns with
  | none => (.error .typeError, s)
  | some cs => (.ok fun chunks => starmap (make (factory P s cs).1) chunks.items.flatten chunks.stop, (factory P s cs).2)

end PG.NamedTuple
