import Mathlib.Algebra.Order.Field.Basic
/-!
# Plane geometry

Independent of the modelled code: coordinates are pairs of numbers.
-/
namespace PG.Spec.Geometry
variable {K : Type} [Field K] [LinearOrder K]

/-- `sqrt` is the square root. -/
def SquareRoot (sqrt : K → K) : Prop := ∀ x, 0 ≤ x → 0 ≤ sqrt x ∧ sqrt x * sqrt x = x

/-- The directions `(a, b)` and `(c, d)` are parallel. -/
def Parallel (a b c d : K) : Prop := a * d = b * c

/-- The directions `(a, b)` and `(c, d)` are at a right angle. -/
def RightAngle (a b c d : K) : Prop := a * c + b * d = 0

/-- `x` lies between `a` and `b`, in any order of these. -/
def Between (a b x : K) : Prop := a ≤ x ∧ x ≤ b ∨ b ≤ x ∧ x ≤ a

end PG.Spec.Geometry
