import Verif.Spec.WireFormat
/-!
# Specification: hstore on the wire (`hstore_send`)
-/
namespace PG.Spec.Hstore
open PG PG.Spec.Format

/-- The pairs: key and value, each with its size; -1 for a NULL value. -/
def pairFields (ps : List (Bytes × Option Bytes)) : List Field := ps.flatMap fun p => value (some p.1) ++ value p.2

/-- The number of pairs and the pairs. -/
def hstoreFields (n : Int) (ps : List (Bytes × Option Bytes)) : List Field := .int32 n :: pairFields ps

/-- The sizes fit and differ from the size that means NULL. -/
def SizesOk (ps : List (Bytes × Option Bytes)) : Prop :=
  ∀ p ∈ ps, p.1.length < 2 ^ 32 - 1 ∧ ∀ v, p.2 = some v → v.length < 2 ^ 32 - 1

/-- `f` turns the keys and values of the first list into those of the second. -/
def Pairwise {α β : Type} (f : α → Except Err β) : List (α × Option α) → List (β × Option β) → Prop
  | [], [] => True
  | (a, none) :: r, (b, none) :: s => f a = .ok b ∧ Pairwise f r s
  | (a, some v) :: r, (b, some w) :: s => f a = .ok b ∧ f v = .ok w ∧ Pairwise f r s
  | _, _ => False

/-- The value of a key: that of its last pair. -/
def lastValue {τ : Type} [DecidableEq τ] (k : τ) : List (τ × Option τ) → Option (Option τ)
  | [] => none
  | p :: r =>
    match lastValue k r with
    | some v => some v
    | none => if p.1 = k then some p.2 else none

end PG.Spec.Hstore
