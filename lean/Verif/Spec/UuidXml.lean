import Verif.Model.Py
/-!
# UUIDs in text, and XML content

Nothing here refers to the models.
-/
namespace PG.Spec.UuidXml
open PG

/-- The hexadecimal digits and their values. -/
def hexDigits : List (Char × Nat) :=
  [('0', 0), ('1', 1), ('2', 2), ('3', 3), ('4', 4), ('5', 5), ('6', 6), ('7', 7), ('8', 8), ('9', 9), ('a', 10), ('b', 11), ('c', 12), ('d', 13), ('e', 14), ('f', 15),
   ('A', 10), ('B', 11), ('C', 12), ('D', 13), ('E', 14), ('F', 15)]

/-- The bytes of pairs of digits. -/
def pairs : List Nat → Bytes
  | x :: y :: r => UInt8.ofNat (16 * x + y) :: pairs r
  | _ => []

/-- The standard text of a byte. -/
def hexByte (b : UInt8) : Str := [("0123456789abcdef".toList)[b.toNat / 16]!, ("0123456789abcdef".toList)[b.toNat % 16]!]

/-- The standard text of the 16 bytes of a UUID: 8-4-4-4-12 digits. -/
def standard (b : Bytes) : Str :=
  (b.take 4).flatMap hexByte ++ '-' :: (((b.drop 4).take 2).flatMap hexByte ++ '-' :: (((b.drop 6).take 2).flatMap hexByte ++ '-' :: (((b.drop 8).take 2).flatMap hexByte ++ '-' :: (b.drop 10).flatMap hexByte)))

/-- White space of XML. -/
def blank (s : Str) : Bool := s.all fun c => c = ' ' || c = '\t' || c = '\r' || c = '\n'

end PG.Spec.UuidXml
