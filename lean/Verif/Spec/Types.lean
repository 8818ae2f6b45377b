import Verif.Model.TypesLib
import Verif.Spec.WireFormat
/-!
# Specification: wire formats of values
-/
namespace PG.Spec.Types
open PG PG.Spec.Format PG.TypesLib

/-- `record_send` of PostgreSQL: the number of columns; for each its type and its value. -/
def recordFields (r : List (Int × Option Bytes)) : List Field :=
  .int32 r.length :: r.flatMap fun (o, v) => .int32 o :: value v

/-- The columns have type oids and sizes that fit. -/
def RecordOk (r : List (Int × Option Bytes)) : Prop :=
  r.length < 2 ^ 31 ∧ ∀ p ∈ r, (0 ≤ p.1 ∧ p.1 < 2 ^ 32) ∧ ∀ d, p.2 = some d → d.length < 2 ^ 31

/-- `array_send`: the number of dimensions, flags, element type; per dimension its length and lower bound; the values. -/
def arrayFields (a : RawArray) : List Field :=
  .int32 a.dims.length :: .int32 a.flags :: .int32 a.typid ::
    (a.dims.zip a.lbs).flatMap (fun (d, l) => [.int32 d, .int32 l]) ++ a.elements.flatMap value

/-- A signed four byte number. -/
def Int4 (n : Int) : Prop := -2 ^ 31 ≤ n ∧ n < 2 ^ 31

/-- As many lower bounds as dimensions, and everything fits. -/
def ArrayOk (a : RawArray) : Prop :=
  a.dims.length = a.lbs.length ∧ a.dims.length < 2 ^ 31 ∧ Int4 a.flags ∧ (0 ≤ a.typid ∧ a.typid < 2 ^ 32) ∧
  (∀ d ∈ a.dims, Int4 d) ∧ (∀ d ∈ a.lbs, Int4 d) ∧ ∀ x ∈ a.elements, ∀ d, x = some d → d.length < 2 ^ 31

/-- An IP address: version 4 with 32 bits or version 6 with 128 bits. -/
def AddressOk (a : IPAddress) : Prop := (a.version = 4 ∧ a.num < 2 ^ 32) ∨ (a.version = 6 ∧ a.num < 2 ^ 128)

/-- A network: the bits after the prefix are zero. -/
def NetworkOk (n : IPNetwork) : Prop :=
  AddressOk n.addr ∧
  ((n.addr.version = 4 ∧ n.prefixlen ≤ 32 ∧ n.addr.num % 2 ^ (32 - n.prefixlen) = 0) ∨
   (n.addr.version = 6 ∧ n.prefixlen ≤ 128 ∧ n.addr.num % 2 ^ (128 - n.prefixlen) = 0))

/-- `c` is a hexadecimal digit, of either case, of value `n`. -/
def IsHex (c : Char) (n : Nat) : Prop :=
  n < 16 ∧ (c = "0123456789abcdef".toList[n]! ∨ c = "0123456789ABCDEF".toList[n]!)

/-- `s` is the byte `b` written with two hexadecimal digits. -/
def HexByte (s : Str) (b : UInt8) : Prop :=
  ∃ hi lo x y, s = [x, y] ∧ IsHex x hi ∧ IsHex y lo ∧ b.toNat = hi * 16 + lo

/-- Six bytes written with two digits each. -/
def HexBytes : List Str → Bytes → Prop
  | [], [] => True
  | s :: l, b :: m => HexByte s b ∧ HexBytes l m
  | _, _ => False

end PG.Spec.Types
