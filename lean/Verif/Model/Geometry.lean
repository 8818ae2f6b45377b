import Mathlib.Algebra.Order.Field.Basic
import Verif.Model.Py
/-!
# Model of `postgresql/types/geometry.py`

Simplified: numbers are elements of an ordered field, so that arithmetic is exact (no rounding, overflow, infinities); `float(x)` is `x`.
`Box` is over any type with a comparison, so that it covers NaN too. Not modelled: `__repr__`, `__str__`.
-/
namespace PG.Geometry
open PG

/-- Exceptions: `ZeroDivisionError`, `ValueError`, `TypeError`. -/
inductive Exn where
  | zeroDivision | value | type
  deriving DecidableEq, Repr

/-- types/geometry.py:7-16 `Point`. -/
structure Point (K : Type) where
  x : K
  y : K
  deriving DecidableEq, Repr

/-- types/geometry.py:55-122 `Lseg`. -/
structure Lseg (K : Type) where
  one : Point K
  two : Point K
  deriving DecidableEq, Repr

/-- types/geometry.py:124-194 `Box`. -/
structure Box (K : Type) where
  high : Point K
  low : Point K
  deriving DecidableEq, Repr

/-- types/geometry.py:196-205 `Circle`. -/
structure Circle (K : Type) where
  center : Point K
  radius : K
  deriving DecidableEq, Repr

section Numbers
variable {K : Type} [Field K] [LinearOrder K]

/-- types/geometry.py:28-30 `__add__`. -/
def Point.add (s w : Point K) : Point K := ⟨s.x + w.x, s.y + w.y⟩

/-- types/geometry.py:32-34 `__sub__`. -/
def Point.sub (s w : Point K) : Point K := ⟨s.x - w.x, s.y - w.y⟩

/-- types/geometry.py:36-40 `__mul__`. -/
def Point.mul (s w : Point K) : Point K := ⟨s.x * w.x - s.y * w.y, s.x * w.y + s.y * w.x⟩

/-- Python's `/` of numbers. -/
def quot (a b : K) : Except Exn K := if b = 0 then .error .zeroDivision else .ok (a / b)

/-- types/geometry.py:42-48 `__div__`. -/
def Point.divMethod (s w : Point K) : Except Exn (Point K) := do
  let rx ← quot (s.x * w.x + s.y * w.y) (w.x * w.x + w.y * w.y)
  let ry ← quot (w.x * s.y + w.y * s.x) (w.x * w.x + w.y * w.y)
  return ⟨rx, ry⟩

/-- `s / w`: Python 3 looks for `__truediv__`, which there is not. -/
def Point.divOperator (_s _w : Point K) : Except Exn (Point K) := .error .type

/-- types/geometry.py:50-54 `distance`, with the square root given. -/
def Point.distance (sqrt : K → K) (s w : Point K) : K := sqrt ((s.x - w.x) ^ 2 + (s.y - w.y) ^ 2)

/-- types/geometry.py:60 `length`. -/
def Lseg.length (sqrt : K → K) (s : Lseg K) : K := s.one.distance sqrt s.two

/-- types/geometry.py:61 `vertical`. -/
def Lseg.vertical (s : Lseg K) : Bool := s.one.x = s.two.x

/-- types/geometry.py:62 `horizontal`. -/
def Lseg.horizontal (s : Lseg K) : Bool := s.one.y = s.two.y

/-- types/geometry.py:63-65 `slope`. -/
def Lseg.slope (s : Lseg K) : Except Exn K := quot (s.two.y - s.one.y) (s.two.x - s.one.x)

/-- types/geometry.py:66-71 `center`. -/
def Lseg.center (s : Lseg K) : Point K := ⟨(s.one.x + s.two.x) / 2, (s.one.y + s.two.y) / 2⟩

/-- types/geometry.py:94-95 `parallel`. -/
def Lseg.parallel (s ob : Lseg K) : Except Exn Bool := do
  let a ← s.slope
  let b ← ob.slope
  return decide (a = b)

/-- types/geometry.py:97-98 `perpendicular`. -/
def Lseg.perpendicular (s ob : Lseg K) : Except Exn Bool := do
  let a ← s.slope
  let b ← ob.slope
  let q ← quot a b
  return decide (q = -1)

/-- types/geometry.py:130-136 `Box.center`. -/
def Box.center (s : Box K) : Point K := ⟨(s.high.x + s.low.x) / 2, (s.high.y + s.low.y) / 2⟩

/-- types/geometry.py:203-207 `Circle.__new__`. -/
def Circle.new (center : Point K) (radius : K) : Except Exn (Circle K) := if radius < 0 then .error .value else .ok ⟨center, radius⟩

end Numbers

/-- types/geometry.py:163-180 `Box.__new__` of a pair of points, `gt` being the comparison. -/
def Box.new {K : Type} (gt : K → K → Bool) (one two : Point K) : Box K :=
  let x := if gt one.x two.x then (one.x, two.x) else (two.x, one.x)
  let y := if gt one.y two.y then (one.y, two.y) else (two.y, one.y)
  ⟨⟨x.1, y.1⟩, ⟨x.2, y.2⟩⟩

end PG.Geometry
