import Verif.Model.PyInt
/-!
# Model of `postgresql/types/bitwise.py` and `types/io/pg_bitwise.py`

A `Varbit` is its two attributes.  The two instances of `Bit` are the values with one bit, since `from_bits` returns them for one
bit and nothing else makes values.
-/
namespace PG.Bitwise
open PG PG.PyInt

/-- bitwise.py:2 `Varbit.__slots__`. -/
structure Varbit where
  data : Bytes
  bits : Int
  deriving DecidableEq, Repr

/-- bitwise.py:114-116. -/
def zeroBit : Varbit := ⟨[0], 1⟩
/-- bitwise.py:117-119. -/
def oneBit : Varbit := ⟨[128], 1⟩

/-- bitwise.py:4-12 `from_bits`. -/
def fromBits (bits : Int) (data : Bytes) : Except Err Varbit :=
  if bits = 1 then
    match data with
    | [] => .error .indexError
    | x :: _ => .ok (if x &&& 128 ≠ 0 then oneBit else zeroBit)
  else .ok ⟨data, bits⟩

/-- bitwise.py:16-17: `Varbit(bytes)`. -/
def ofBytes (data : Bytes) : Except Err Varbit := fromBits (data.length * 8) data

/-- `bytes((x,))`. -/
def byteOf (x : Int) : Except Err UInt8 := if x < 0 ∨ 256 ≤ x then .error .valueError else .ok (UInt8.ofNat x.toNat)

/-- bitwise.py:21-24: the text, eight characters at a time; the rest filled up with '0'. -/
def byteLoop : Nat → Str → Except Err Bytes
  | 0, _ => .ok []
  | fuel + 1, s =>
    if s = [] then .ok []
    else do
      let n ← pyInt 2 (s.take 8 ++ List.replicate (8 - s.length) '0')
      let b ← byteOf n
      let t ← byteLoop fuel (s.drop 8)
      return b :: t

/-- bitwise.py:18-25: `Varbit(str)`. -/
def ofStr (s : Str) : Except Err Varbit := do
  let d ← byteLoop (s.length + 1) s
  fromBits s.length d

/-- `bin(x)[2:].rjust(8, '0')`. -/
def bin8 (x : UInt8) : Str := (List.range 8).map fun i => if x.toNat / 2 ^ (7 - i) % 2 = 1 then '1' else '0'

/-- bitwise.py:27-34 `Varbit.__str__`, 110-111 `Bit.__str__`.  Without data but with bits, `blocks[-1]` raises IndexError. -/
def str (v : Varbit) : Except Err Str :=
  if v.bits = 1 then .ok (if v = oneBit then ['1'] else ['0'])
  else if v.bits ≠ 0 then
    match v.data.getLast? with
    | none => .error .indexError
    | some l =>
      let k := v.bits % 8
      .ok (v.data.dropLast.flatMap bin8 ++ (bin8 l).take (if k ≠ 0 then k.toNat else 8))
  else .ok []

/-- bitwise.py:43-46 `__eq__` between two values.  If only one is a `Bit`, its `__eq__` is called (the reflected one first if it is
on the right, its class being a subclass), and `Bit(other)` raises ValueError. -/
def eq (a b : Varbit) : Except Err Bool :=
  if a.bits = 1 ∧ b.bits ≠ 1 ∨ a.bits ≠ 1 ∧ b.bits = 1 then .error .valueError
  else .ok (a.bits = b.bits ∧ a.data = b.data)

/-- bitwise.py:48-49 `__len__` (`len()` refuses negative results). -/
def len (v : Varbit) : Except Err Nat := if v.bits < 0 then .error .valueError else .ok v.bits.toNat

/-- bitwise.py:51-52 `__add__`. -/
def add (a b : Varbit) : Except Err Varbit := do
  let x ← str a
  let y ← str b
  ofStr (x ++ y)

/-- bitwise.py:54-55 `__mul__` with an integer. -/
def mul (a : Varbit) (n : Int) : Except Err Varbit := do
  let x ← str a
  ofStr (List.replicate n.toNat x).flatten

/-- bitwise.py:57-70 `getbit`: `self.data[byte]` is an integer, `ord` of it raises TypeError. -/
def getbit (v : Varbit) (offset : Int) : Except Err Varbit :=
  let idx := if offset < 0 then v.bits + offset else offset
  if ¬ (0 ≤ idx ∧ idx < v.bits) then .error .indexError
  else if (v.data.length : Int) ≤ idx / 8 then .error .indexError
  else .error .typeError

/-- pg_bitwise.py:5-6 and lib.py:249-258: sending a bit string. -/
def ioPack (v : Varbit) : Except Err Bytes := TypesLib.varbitPack (v.bits, v.data)
/-- pg_bitwise.py:8-9 and lib.py:260-268: receiving a bit string. -/
def ioUnpack (b : Bytes) : Except Err Varbit := do
  let (n, d) ← TypesLib.varbitUnpack b
  fromBits n d

end PG.Bitwise
