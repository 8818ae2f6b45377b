import Verif.Model.Py
/-!
# Model of `TypeIO.lookup_domain_basetype` (`postgresql/driver/pq3.py` 152-165) and the two queries it uses (`lib/libsys.sql` 42-78)
-/
namespace PG.Domains
open PG

/-- `pg_type`: for each type that exists whether its `typtype` is 'd', and its `typbasetype` (0 if it is not a domain). -/
abbrev Catalog := Nat → Option (Bool × Nat)

/-- lib/libsys.sql:72-78 `lookup_basetype`: the rows. -/
def lookupBasetype (cat : Catalog) (t : Nat) : List Nat := match cat t with
  | none => []
  | some (_, b) => [b]

/-- pq3.py:156-161: the loop. The result is None if the type is 0. `r[0]` raises IndexError if there is no row. -/
def loop (cat : Catalog) : Nat → Nat → Except Err (Option Nat)
  | 0, _ => .error .nonTermination
  | fuel + 1, t =>
    if t = 0 then .ok none
    else match lookupBasetype cat t with
      | [] => .error .indexError
      | r :: _ => if r = 0 then .ok (some t) else loop cat fuel r

/-- lib/libsys.sql:54-62: the rows that the recursive part adds after the row of `t`, one for each level. -/
def hierarchy (cat : Catalog) : Nat → Nat → List Nat
  | 0, _ => []
  | fuel + 1, t => match cat t with
    | none => []
    | some (_, b) => if b ≠ 0 then b :: hierarchy cat fuel b else []

/-- lib/libsys.sql:42-70 `lookup_basetype_recursive`: NULL if it is not a domain, otherwise the `typid` of the deepest row; the first row is the domain's own. -/
def lookupBasetypeRecursive (cat : Catalog) (fuel t : Nat) : List (Option Nat) := match cat t with
  | none => []
  | some (false, _) => [none]
  | some (true, b) => [(b :: hierarchy cat fuel b).getLast?]

/-- pq3.py:163-165 `lookup_domain_basetype_84`. -/
def basetype84 (cat : Catalog) (fuel t : Nat) : Except Err (Option Nat) := match lookupBasetypeRecursive cat fuel t with
  | [] => .error .indexError
  | r :: _ => .ok r

/-- pq3.py:152-161 `lookup_domain_basetype`; `major` and `minor` are the first two numbers of the server's version. -/
def basetype (cat : Catalog) (major minor fuel t : Nat) : Except Err (Option Nat) :=
  if major > 8 ∨ (major = 8 ∧ minor ≥ 4) then basetype84 cat fuel t else loop cat fuel t

end PG.Domains
