import Verif.Model.Struct
import Verif.Model.OptBuffer
/-!
# Model of `postgresql/port/_optimized/structlib.c` and of its use in `python/structlib.py` 42-82

Integers in memory, the byte order of the host and the size of its type `long` are explicit. The objects packed are of type `int`; those unpacked are `bytes` (a `memoryview` for
`ulong_unpack`).
-/
namespace PG.OptStruct
open PG PG.OptBuffer

/-- `sys.byteorder` is 'little' (structlib.py:46), and the number of bytes of the type `long`. -/
structure Host where
  little : Bool
  long : Nat
  deriving DecidableEq, Repr

/-- An integer of `k` bytes in memory; of the number what fits (a cast in C). -/
def store (h : Host) (k : Nat) (n : Int) : Bytes :=
  if h.little then (beEnc k (n % (256 ^ k : Int)).toNat).reverse else beEnc k (n % (256 ^ k : Int)).toNat

/-- The value of an unsigned integer in memory. -/
def load (h : Host) (b : Bytes) : Nat := if h.little then beDec b.reverse else beDec b

/-- structlib.c:8-21 `swap2`, `swap4`, `swap8`: pairs of bytes are exchanged in place. -/
def swap : Bytes → Bytes
  | [a, b] => [b, a]
  | [a, b, c, d] => [d, c, b, a]
  | [a, b, c, d, e, f, g, h] => [h, g, f, e, d, c, b, a]
  | l => l

/-- `PyLong_AsLong`, `PyLong_AsLongLong`: a signed integer of `w` bytes, or OverflowError. -/
def asSigned (w : Nat) (n : Int) : Except CErr Int :=
  if -(256 ^ w : Int) ≤ 2 * n ∧ 2 * n < 256 ^ w then .ok n else .error .overflow

/-- `PyLong_AsUnsignedLong`, `PyLong_AsUnsignedLongLong`: an unsigned one. -/
def asUnsigned (w : Nat) (n : Int) : Except CErr Int := if 0 ≤ n ∧ n < 256 ^ w then .ok n else .error .overflow

/-- structlib.c:113-150 `int2_pack`, `swap_int2_pack` (module.c:20-22 for the limits). -/
def int2Pack (h : Host) (swapped : Bool) (n : Int) : Except CErr Bytes := do
  let l ← asSigned h.long n
  if l > 32767 ∨ l < -32768 then .error .overflow
  else return if swapped then swap (store h 2 l) else store h 2 l

/-- structlib.c:200-238 `int4_pack`, `swap_int4_pack`. -/
def int4Pack (h : Host) (swapped : Bool) (n : Int) : Except CErr Bytes := do
  let l ← asSigned h.long n
  if ¬ (l ≤ 0x7FFFFFFF ∧ l ≥ -0x80000000) then .error .overflow
  else return if swapped then swap (store h 4 l) else store h 4 l

/-- structlib.c:283-325 `uint2_pack`, `swap_uint2_pack`: of a signed `long`. -/
def uint2Pack (h : Host) (swapped : Bool) (n : Int) : Except CErr Bytes := do
  let l ← asSigned h.long n
  if l > 65535 ∨ l < 0 then .error .overflow
  else return if swapped then swap (store h 2 l) else store h 2 l

/-- structlib.c:377-416 `uint4_pack`, `swap_uint4_pack`. -/
def uint4Pack (h : Host) (swapped : Bool) (n : Int) : Except CErr Bytes := do
  let l ← asUnsigned h.long n
  if l > 0xFFFFFFFF then .error .overflow
  else return if swapped then swap (store h 4 l) else store h 4 l

/-- structlib.c:462-486 `int8_pack`, `swap_int8_pack`. -/
def int8Pack (h : Host) (swapped : Bool) (n : Int) : Except CErr Bytes := do
  let l ← asSigned 8 n
  return if swapped then swap (store h 8 l) else store h 8 l

/-- structlib.c:488-512 `uint8_pack`, `swap_uint8_pack`. -/
def uint8Pack (h : Host) (swapped : Bool) (n : Int) : Except CErr Bytes := do
  let l ← asUnsigned 8 n
  return if swapped then swap (store h 8 l) else store h 8 l

/-- structlib.c:327-373, 418-458, 514-551: the unsigned unpack functions, of the first `k` bytes. -/
def uintUnpack (h : Host) (k : Nat) (swapped : Bool) (b : Bytes) : Except CErr Int :=
  if b.length < k then .error .value
  else .ok (load h (if swapped then swap (b.take k) else b.take k))

/-- structlib.c:152-198, 240-281, 552-597: the signed ones. -/
def intUnpack (h : Host) (k : Nat) (swapped : Bool) (b : Bytes) : Except CErr Int :=
  if b.length < k then .error .value
  else .ok (toSigned k (load h (if swapped then swap (b.take k) else b.take k)))

/-! structlib.py:45-75: the functions for network order: those that swap on a host of the other order. -/

/-- structlib.py:47-48, 61-62 `short_pack`. -/
def shortPack (h : Host) : Int → Except CErr Bytes := int2Pack h h.little
/-- structlib.py:49-50, 63-64 `ushort_pack`. -/
def ushortPack (h : Host) : Int → Except CErr Bytes := uint2Pack h h.little
/-- structlib.py:51-52, 65-66 `long_pack`. -/
def longPack (h : Host) : Int → Except CErr Bytes := int4Pack h h.little
/-- structlib.py:53-54, 67-68 `ulong_pack`. -/
def ulongPack (h : Host) : Int → Except CErr Bytes := uint4Pack h h.little
/-- structlib.py:57-58, 71-72 `longlong_pack`. -/
def longlongPack (h : Host) : Int → Except CErr Bytes := int8Pack h h.little
/-- structlib.py:59-60, 73-74 `ulonglong_pack`. -/
def ulonglongPack (h : Host) : Int → Except CErr Bytes := uint8Pack h h.little
/-- structlib.py:47-74: the signed unpack functions, of `k` bytes. -/
def unpackS (h : Host) (k : Nat) : Bytes → Except CErr Int := intUnpack h k h.little
/-- structlib.py:47-74: the unsigned ones. -/
def unpackU (h : Host) (k : Nat) : Bytes → Except CErr Int := uintUnpack h k h.little

end PG.OptStruct
