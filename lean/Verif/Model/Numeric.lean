import Verif.Model.Struct
/-!
# Model of `postgresql/types/io/stdlib_decimal.py` and of `numeric_pack`, `numeric_unpack` of `types/io/lib.py`
-/
namespace PG.Numeric
open PG

/-- The exponent of `Decimal.as_tuple()`: a number, `'F'` for infinities, `'n'` and `'N'` for NaNs. -/
inductive Exp where
  | int (e : Int)
  | inf
  | nan
  deriving DecidableEq, Repr

/-- `Decimal.as_tuple()`. -/
structure Dec where
  sign : Int
  digits : List Nat
  exponent : Exp
  deriving DecidableEq, Repr

/-- The decimal digits of `str(n)`. -/
def decDigits (n : Nat) : List Nat := if _h : n < 10 then [n] else decDigits (n / 10) ++ [n % 10]
termination_by n

/-- `Decimal((sign, digits, exponent)).as_tuple()`: leading zeros are dropped, no digits are zero; a sign other than 0 and 1 raises. -/
def mkDecimal (sign : Int) (digits : List Nat) (e : Int) : Except Err Dec :=
  if sign ≠ 0 ∧ sign ≠ 1 then .error .valueError
  else
    let d := digits.dropWhile (· = 0)
    .ok ⟨sign, if d = [] then [0] else d, .int e⟩

/-- stdlib_decimal.py:87-116: the digits, four at a time, multiplied by `cycle([1000, 100, 10, 1])` and summed. -/
def groups : List Nat → List Nat
  | a :: b :: c :: d :: r => (a * 1000 + b * 100 + c * 10 + d) :: groups r
  | [a, b, c] => [a * 1000 + b * 100 + c * 10]
  | [a, b] => [a * 1000 + b * 100]
  | [a] => [a * 1000]
  | [] => []

/-- stdlib_decimal.py:30 `numeric_negative`. -/
def numericNegative : Int := 16384

/-- `(-n) % 4`: stdlib_decimal.py:64-66 and 83-85 (`pad = n % 4; if pad: pad = 4 - pad`). -/
def padOf (n : Int) : Nat :=
  let p := n % 4
  if p ≠ 0 then (4 - p).toNat else p.toNat

/-- stdlib_decimal.py:51-55: the loop that counts trailing zeros right of the point. -/
def trailingZeros (digits : List Nat) (e : Int) : Nat :=
  ((digits.reverse.take (min digits.length (-e).toNat)).takeWhile (· = 0)).length

/-- What `numeric_pack` sends: the header and the numeric digits. -/
structure Wire where
  ndigits : Int
  weight : Int
  sign : Int
  dscale : Int
  digits : List Int
  deriving DecidableEq, Repr

/-- stdlib_decimal.py:83-125: padding and grouping. -/
def wireOf (sign : Int) (digits : List Nat) (weight ldigits rdigits : Int) (rpad : Nat) (dscale : Int) : Wire :=
  let lpad := padOf ldigits
  let weight := weight + (ldigits + lpad)
  ⟨(ldigits + rdigits + lpad + rpad) / 4, weight / 4 - 1, if sign = 1 then numericNegative else sign, dscale,
    (groups (List.replicate lpad 0 ++ digits ++ List.replicate rpad 0)).map (Int.ofNat ·)⟩

/-- stdlib_decimal.py:46-125 for a finite decimal. -/
def toWire (sign : Int) (xdigits : List Nat) (e : Int) : Wire :=
  if e < 0 then
    let tz := trailingZeros xdigits e
    let digits := if tz ≠ 0 then xdigits.take (xdigits.length - tz) else xdigits     -- x.digits[:-tz]
    let rdigits := -(e + tz)
    let ldigits := digits.length - rdigits
    wireOf sign digits 0 ldigits rdigits (padOf rdigits) (-e)
  else
    let r := e % 4
    if e ≠ 0 ∧ r ≠ 0 then
      let digits := xdigits ++ List.replicate r.toNat 0
      wireOf sign digits (e - r) digits.length 0 0 0
    else wireOf sign xdigits e xdigits.length 0 0 0

/-- `pack("!%dh", ...)`. -/
def shortsPack : List Int → Except Err Bytes
  | [] => .ok []
  | x :: r => do
    let a ← packS 2 x
    let t ← shortsPack r
    return a ++ t

/-- lib.py:37-38 `numeric_pack`. -/
def libPack (w : Wire) : Except Err Bytes := do
  let h ← shortsPack [w.ndigits, w.weight, w.sign, w.dscale]
  let d ← shortsPack w.digits
  return h ++ d

/-- stdlib_decimal.py:32-125 `numeric_pack`.  An infinity raises ValueError; for a NaN `x.exponent < 0` raises TypeError. -/
def numericPack (x : Dec) : Except Err Bytes :=
  match x.exponent with
  | .inf => .error .valueError
  | .nan => .error .typeError
  | .int e => libPack (toWire x.sign x.digits e)

/-- `n` shorts from the beginning of the data. -/
def shortsDec : Nat → Bytes → List Int
  | 0, _ => []
  | n + 1, b => toSigned 2 (beDec (b.take 2)) :: shortsDec n (b.drop 2)

/-- lib.py:40-41 `numeric_unpack`: less than eight bytes or an odd number of them raise struct.error. -/
def libUnpack (data : Bytes) : Except Err Wire :=
  if data.length < 8 then .error .structError
  else if data.length % 2 ≠ 0 then .error .structError
  else match shortsDec 4 data with
    | [a, b, c, d] => .ok ⟨a, b, c, d, shortsDec ((data.length - 8) / 2) (data.drop 8)⟩
    | _ => .error .structError

/-- `str(n)` as digits; a negative number has a '-' that `int` refuses. -/
def strDigits (n : Int) : Except Err (List Nat) := if n < 0 then .error .valueError else .ok (decDigits n.toNat)

/-- stdlib_decimal.py:132-134: the digits of the groups but the first: `str(y).rjust(4, '0')`. -/
def convertRest : List Int → Except Err (List Nat)
  | [] => .ok []
  | y :: r => do
    let s ← strDigits y
    let t ← convertRest r
    return List.replicate (4 - s.length) 0 ++ s ++ t

/-- stdlib_decimal.py:127-137 `numeric_convert_digits`, consumed. -/
def convertDigits : List Int → Except Err (List Nat)
  | [] => .ok []
  | x :: r => do
    let s ← strDigits x
    let t ← convertRest r
    return s ++ t

/-- stdlib_decimal.py:143-154 `numeric_unpack`. -/
def ofWire (w : Wire) : Except Err Dec := do
  let npad := w.dscale - (w.ndigits - (w.weight + 1)) * 4
  let l ← convertDigits w.digits
  let digits := if 0 ≤ npad then l ++ List.replicate npad.toNat 0 else l.take (l.length - (-npad).toNat)
  mkDecimal (if w.sign = numericNegative then 1 else w.sign) digits (-w.dscale)

/-- stdlib_decimal.py:143-154. -/
def numericUnpack (data : Bytes) : Except Err Dec := do
  let w ← libUnpack data
  ofWire w

end PG.Numeric
