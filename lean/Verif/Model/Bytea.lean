import Verif.Model.PyInt
/-!
# Model of `postgresql/encodings/bytea.py`
-/
namespace PG.Bytea
open PG PG.PyInt

/-- `oct(i)[2:].rjust(3, '0')` for a byte. -/
def oct3 (i : Nat) : Str := [Char.ofNat (48 + i / 64), Char.ofNat (48 + i / 8 % 8), Char.ofNat (48 + i % 8)]

/-- bytea.py:9-15 `ord_to_seq`. -/
def ordToSeq (i : Nat) : Str :=
  if ¬ (32 < i ∧ i < 126) then '\\' :: oct3 i
  else if i = 92 then ['\\', '\\']
  else [Char.ofNat i]

/-- bytea.py:17-23 `decode`. -/
def decode (data : Bytes) : Str := data.flatMap fun x => ordToSeq x.toNat

/-- `str.isdigit` for ASCII. -/
def isDigit (c : Char) : Bool := '0' ≤ c ∧ c ≤ '9'

/-- bytea.py:25-52: the loop of `encode`. -/
def encodeLoop : Str → Except Err (List Int)
  | [] => .ok []
  | '\\' :: [] => .error .valueError                                 -- incomplete backslash sequence
  | '\\' :: '\\' :: r => do
    let t ← encodeLoop r
    return 92 :: t
  | ['\\', _] => .error .valueError                                  -- three digits are required, or an invalid follow
  | ['\\', _, _] => .error .valueError
  | '\\' :: y :: z :: w :: r =>
    if isDigit y then do
      let n ← pyInt 8 [y, z, w]
      let t ← encodeLoop r
      return n :: t
    else .error .valueError
  | x :: r => do
    let t ← encodeLoop r
    return (x.toNat : Int) :: t

/-- `struct.pack('nB', ...)`. -/
def packBytes : List Int → Except Err Bytes
  | [] => .ok []
  | x :: r => do
    let a ← packU 1 x
    let t ← packBytes r
    return a ++ t

/-- bytea.py:25-53 `encode`. -/
def encode (data : Str) : Except Err Bytes := do
  let l ← encodeLoop data
  packBytes l

end PG.Bytea
