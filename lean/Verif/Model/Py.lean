/-!
# Python runtime fragments used by the models

Bytes, exceptions as values, big-endian `struct` fields.  These are models of Python built-ins (not of /repo code); each
model that uses them cites the call site.
-/
namespace PG

/-- Python `bytes`. -/
abbrev Bytes := List UInt8

/-- Python `str`. -/
abbrev Str := List Char

/-- Exceptions raised by the modelled code, as values. -/
inductive Err where
  | valueError | typeError | structError | indexError | keyError | runtimeError | stopIteration
  | overflowError | attributeError | nonTermination
  deriving DecidableEq, Repr

deriving instance DecidableEq for Except

/-- Python `b[i:j]` for non-negative `i`, `j` (out-of-range bounds are clipped, as in Python). -/
def slice {α} (b : List α) (i j : Nat) : List α := (b.drop i).take (j - i)

/-- The big-endian encoding of `n` in `k` bytes (`struct` '!B', '!H', '!L', '!Q' for k = 1,2,4,8), wrapping. -/
def beEnc : Nat → Nat → Bytes
  | 0, _ => []
  | k + 1, n => beEnc k (n / 256) ++ [UInt8.ofNat n]

/-- The value of a big-endian byte string (`int.from_bytes(b, 'big')`). -/
def beDec (b : Bytes) : Nat := b.foldl (fun a x => a * 256 + x.toNat) 0

/-- `struct.pack` of an unsigned `k`-byte field: out-of-range values raise `struct.error`. -/
def packU (k : Nat) (n : Int) : Except Err Bytes :=
  if 0 ≤ n ∧ n < 256 ^ k then .ok (beEnc k n.toNat) else .error .structError

/-- `struct.pack` of a signed `k`-byte field (two's complement). -/
def packS (k : Nat) (n : Int) : Except Err Bytes :=
  if -(256 ^ k : Int) ≤ 2 * n ∧ 2 * n < 256 ^ k then .ok (beEnc k (n % (256 ^ k : Int)).toNat) else .error .structError

/-- `struct.unpack` of an unsigned `k`-byte field: the argument must have exactly `k` bytes. -/
def unpackU (k : Nat) (b : Bytes) : Except Err Nat :=
  if b.length = k then .ok (beDec b) else .error .structError

/-- Two's complement reading of a `k`-byte unsigned value. -/
def toSigned (k : Nat) (n : Nat) : Int :=
  if 2 * n < 256 ^ k then (n : Int) else (n : Int) - (256 ^ k : Nat)

/-- `struct.unpack` of a signed `k`-byte field. -/
def unpackS (k : Nat) (b : Bytes) : Except Err Int :=
  if b.length = k then .ok (toSigned k (beDec b)) else .error .structError

/-- `io.BytesIO`: contents and position. -/
structure BytesIO where
  buf : Bytes := []
  pos : Nat := 0
  deriving DecidableEq, Repr

namespace BytesIO
/-- `f.seek(p)` for `p ≥ 0`. -/
abbrev seek (f : BytesIO) (p : Nat) : BytesIO := { f with pos := p }
/-- `f.seek(0, 2)`. -/
abbrev seekEnd (f : BytesIO) : BytesIO := { f with pos := f.buf.length }
/-- `f.seek(d, 1)`; CPython clips a negative target to 0. -/
abbrev seekRel (f : BytesIO) (d : Int) : BytesIO := { f with pos := ((f.pos : Int) + d).toNat }
/-- `f.read(n)`. -/
abbrev read (f : BytesIO) (n : Nat) : Bytes × BytesIO :=
  let d := slice f.buf f.pos (f.pos + n)
  (d, { f with pos := f.pos + d.length })
/-- `f.read()`. -/
abbrev readAll (f : BytesIO) : Bytes × BytesIO :=
  let d := f.buf.drop f.pos
  (d, { f with pos := f.pos + d.length })
/-- `f.write(d)`: overwrite at the position; a gap past the end is filled with zero bytes. -/
abbrev write (f : BytesIO) (d : Bytes) : BytesIO :=
  if d = [] then f
  else
    { buf := (f.buf ++ List.replicate (f.pos - f.buf.length) 0).take f.pos ++ d ++ f.buf.drop (f.pos + d.length)
      pos := f.pos + d.length }
/-- `f.truncate(n)`: the position does not move. -/
abbrev truncate (f : BytesIO) (n : Nat) : BytesIO := { f with buf := f.buf.take n }
end BytesIO

end PG
