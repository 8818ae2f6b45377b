import Verif.Model.Itertools
/-! # What `chunk` and `interlace` should give -/
namespace PG.Spec.Itertools

/-- The item of the `k`-th place of a rotation over `n` sequences: the `k / n`-th one of sequence `k % n`. -/
def placed {α : Type} (iters : List (List α)) (k : Nat) : Option α := (iters[k % iters.length]?).bind (·[k / iters.length]?)

/-- `out` is cut into pieces: each is full, but for the last, which is shorter. -/
def Cut {α : Type} (n : Nat) (pieces : List (List α)) (l : List α) : Prop :=
  pieces.flatten = l ∧ (∀ p ∈ pieces.dropLast, p.length = n) ∧ ∃ p, pieces.getLast? = some p ∧ p.length < n

end PG.Spec.Itertools
