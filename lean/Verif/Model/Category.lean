import Verif.Model.Py
/-!
# Model of `postgresql/lib/__init__.py`: `Category`

A library is its identity and its name; a database is its attributes. The order in which a set of libraries is gone through is not determined: it is a parameter.
-/
namespace PG.Category
open PG

/-- A library: libraries are compared by identity (they have no `__eq__`). -/
structure Lib where
  ident : Nat
  name : Str
  deriving DecidableEq, Repr

/-- What an attribute of the database is. -/
inductive Attr where
  | binding (l : Lib)
  | other (n : Nat)
  deriving DecidableEq, Repr

/-- The attributes of a database, those of its class too. -/
abbrev Attrs := Str → Option Attr

/-- lib/__init__.py:411-420 `__init__`: what is kept: the libraries without and with alias. -/
structure Cat where
  direct : List Lib
  named : List (Str × Lib)

/-- lib/__init__.py:415-420: `self.aliases.get(l, ())`. -/
def Cat.aliases (c : Cat) (l : Lib) : List Str := c.named.filterMap fun p => if p.2 = l then some p.1 else none

/-- lib/__init__.py:424-426: the names of a library. -/
def Cat.names (c : Cat) (l : Lib) : List Str := c.aliases l ++ (if l ∈ c.direct then [l.name] else [])

/-- Exceptions. -/
inductive Exc where
  | attributeError
  | nameError
  deriving DecidableEq, Repr

/-- lib/__init__.py:428-431: the names of one library. The message of the exception uses a variable that does not exist: NameError. -/
def setNames (l : Lib) : Attrs → List Str → Attrs × Option Exc
  | a, [] => (a, none)
  | a, n :: ns => if (a n).isSome then (a, some .nameError) else setNames l (fun m => if m = n then some (.binding l) else a m) ns

/-- lib/__init__.py:422-431 `__call__`; `order` are the members of `self.libraries`, each once. -/
def call (c : Cat) : Attrs → List Lib → Attrs × Option Exc
  | a, [] => (a, none)
  | a, l :: ls => match setNames l a (c.names l) with
    | (a, some e) => (a, some e)
    | (a, none) => call c a ls

end PG.Category
