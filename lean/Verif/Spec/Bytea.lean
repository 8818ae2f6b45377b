import Verif.Model.Py
/-!
# Specification: the escape format of `bytea` as PostgreSQL's `byteain` reads it, and bit strings
-/
namespace PG.Spec.Bytea
open PG

/-- The value of an octal digit. -/
def octVal (c : Char) : Option Nat := if '0' ≤ c ∧ c ≤ '7' then some (c.toNat - 48) else none

/-- PostgreSQL's `byteain`, escape format: `\\` is a backslash, `\` and three octal digits (the first at most 3) a byte, other
characters themselves (here: one byte characters); anything else after a backslash is an error. -/
def byteain : Str → Option Bytes
  | [] => some []
  | '\\' :: '\\' :: r => (byteain r).map (92 :: ·)
  | '\\' :: a :: b :: c :: r => do
    let x ← octVal a
    let y ← octVal b
    let z ← octVal c
    if 3 < x then none
    else (byteain r).map (UInt8.ofNat (x * 64 + y * 8 + z) :: ·)
  | c :: r => if c = '\\' ∨ 256 ≤ c.toNat then none else (byteain r).map (UInt8.ofNat c.toNat :: ·)

/-- The text of a bit string. -/
def bitText (l : List Bool) : Str := l.map fun b => if b then '1' else '0'

/-- The bytes of a bit string as PostgreSQL sends them: bit `j` of byte `k`, from the highest, is bit `8 k + j`; the last byte is filled up
with zero bits. -/
def bitBytes (l : List Bool) : Bytes :=
  (List.range ((l.length + 7) / 8)).map fun k =>
    UInt8.ofNat (((List.range 8).map fun j => if l.getD (8 * k + j) false then 2 ^ (7 - j) else 0).foldl (· + ·) 0)

end PG.Spec.Bytea
