import Verif.Spec.WireFormat
/-!
# Specification: NUMERIC on the wire, and the value of a decimal
-/
namespace PG.Spec.Numeric
open PG PG.Spec.Format

/-- The number written by digits in a base. -/
def number (base : Nat) (ds : List Nat) : Nat := ds.foldl (fun a d => a * base + d) 0

/-- `a · 10^e = b · 10^f`. -/
def SameValue (a : Nat) (e : Int) (b : Nat) (f : Int) : Prop :=
  a * 10 ^ (e - min e f).toNat = b * 10 ^ (f - min e f).toNat

/-- `numeric_send`: the number of base 10000 digits, the weight of the first (a power of 10000), the sign (0 or 0x4000), the
number of decimal digits shown after the point, the digits. -/
def numericFields (weight sign dscale : Int) (ds : List Nat) : List Field :=
  [.int16 ds.length, .int16 weight, .int16 sign, .int16 dscale] ++ ds.map fun d => .int16 (d : Nat)

/-- The value sent: `number 10000 ds · 10000 ^ (weight - (length - 1))`; here the power of ten. -/
def wireExponent (weight : Int) (ds : List Nat) : Int := 4 * (weight - (ds.length - 1))

/-- Digits as Python's `Decimal` keeps them: nonempty, below 10, no leading zero but in the number zero. -/
def Normal (ds : List Nat) : Prop :=
  ds ≠ [] ∧ (∀ d ∈ ds, d < 10) ∧ (ds.head? = some 0 → ds = [0])

end PG.Spec.Numeric
