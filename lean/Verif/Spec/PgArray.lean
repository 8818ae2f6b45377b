import Verif.Model.PgArray
/-!
# What a nested list is: dimensions, row-major order, access by a path of indices
-/
namespace PG.Spec.PgArray
open PG.PgArray

variable {α : Type}

/-- Not a list: an element. -/
def IsElement : V α → Prop
  | .list _ => False
  | _ => True

/-- A regular nest of lists: every list at the `i`-th level has the `i`-th size, and below the last level there are elements. -/
def HasShape : List Nat → V α → Prop
  | [], v => IsElement v
  | d :: ds, v => ∃ l, v = .list l ∧ l.length = d ∧ ∀ x ∈ l, HasShape ds x

/-- The same without the condition on the elements. -/
def Nest : List Nat → V α → Prop
  | [], _ => True
  | d :: ds, v => ∃ l, v = .list l ∧ l.length = d ∧ ∀ x ∈ l, Nest ds x

/-- The members of a list or a tuple. -/
def members : V α → Option (List (V α))
  | .atom _ => none
  | .list l => some l
  | .tuple l => some l

/-- The same where a tuple may take the place of a list. -/
def Loose : List Nat → V α → Prop
  | [], _ => True
  | d :: ds, v => ∃ l, members v = some l ∧ l.length = d ∧ ∀ x ∈ l, Loose ds x

/-- The sizes of the lists found by going down the first members. -/
inductive Down : V α → List Nat → Prop
  | stop {v} : IsElement v → Down v []
  | go {x l ds} : Down x ds → Down (.list (x :: l)) ((l.length + 1) :: ds)

/-- The elements in row-major order. -/
def flat : List Nat → V α → List (V α)
  | [], v => [v]
  | _ :: ds, v => ((members v).getD []).flatMap (flat ds)

/-- The value at a path of indices. -/
def follow : V α → List Nat → Option (V α)
  | v, [] => some v
  | v, i :: p => (members v).bind fun l => l[i]?.bind fun x => follow x p

/-- What an index means in Python: negative ones count from the end. -/
def IsIndex (d : Nat) (a : Int) (i : Nat) : Prop := i < d ∧ (a = i ∨ a = (i : Int) - d)

end PG.Spec.PgArray
namespace PG.Spec.PgArray
/-- The bounds of the dimensions fit their sizes. -/
def Bounds : List Int → List Int → List Nat → Prop
  | [], [], [] => True
  | l :: ls, u :: us, d :: ds => (d : Int) = u - l + 1 ∧ 1 ≤ d ∧ Bounds ls us ds
  | _, _, _ => False

/-- An address and the indices it means. -/
def Indices : List Nat → List Int → List Nat → Prop
  | [], [], [] => True
  | d :: ds, a :: as, i :: is => IsIndex d a i ∧ Indices ds as is
  | _, _, _ => False
end PG.Spec.PgArray
