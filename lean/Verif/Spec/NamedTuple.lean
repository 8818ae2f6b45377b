import Verif.Model.Py
/-!
# How rows are read by attribute

Independent of the modelled code. A row has the columns `names`; `usable` says which names may be attributes (for `collections.namedtuple`:
identifiers that are no keywords and do not begin with an underscore).
-/
namespace PG.Spec.NamedTuple
open PG

/-- The name under which a column is looked for: spaces are underscores. -/
def Spaced (n m : Str) : Prop := m.length = n.length ∧ ∀ i : Nat, m[i]? = if n[i]? = some ' ' then some '_' else n[i]?

/-- The same of all columns. -/
def SpacedAll (cols ns : List Str) : Prop := ns.length = cols.length ∧ ∀ (i : Nat) n m, cols[i]? = some n → ns[i]? = some m → Spaced n m

/-- `m` is the attribute of column `i`: its name if that may be an attribute and no earlier column has it, `_i` otherwise. -/
def AttributeOf (usable : Str → Prop) (names : List Str) (i : Nat) (m : Str) : Prop :=
  ∃ n, names[i]? = some n ∧ (usable n ∧ (∀ j < i, names[j]? ≠ some n) ∧ m = n ∨ ¬ (usable n ∧ ∀ j < i, names[j]? ≠ some n) ∧ m = '_' :: Nat.toDigits 10 i)

end PG.Spec.NamedTuple
