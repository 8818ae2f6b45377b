import Verif.Model.Struct
import Verif.Model.Itertools
/-!
# Model of `postgresql/types/io/lib.py` and of the simple type modules of `postgresql/types/io`

Integers are Python ints.  A Python float is its IEEE 754 image (`Dbl`), which `struct` copies.  The C versions of the integer
routines (port/optimized) are not modelled, nor the float time formats (`time_pack`, `interval_pack` ...).
-/
namespace PG.TypesLib
open PG PG.Itertools

/-! ## Fixed width -/

/-- builtins.py:8 `bool_pack`. -/
def boolPack : Bool → Bytes
  | true => [1]
  | false => [0]
/-- builtins.py:9 `bool_unpack`. -/
def boolUnpack (b : Bytes) : Except Err Bool :=
  if b = [1] then .ok true else if b = [0] then .ok false else .error .keyError

/-- builtins.py:11 `int2_pack`, lib.py short_pack. -/
def int2Pack (n : Int) : Except Err Bytes := packS 2 n
/-- builtins.py:11. -/
def int2Unpack (b : Bytes) : Except Err Int := unpackFromS 2 b
/-- builtins.py:12. -/
def int4Pack (n : Int) : Except Err Bytes := packS 4 n
/-- builtins.py:12. -/
def int4Unpack (b : Bytes) : Except Err Int := unpackFromS 4 b
/-- builtins.py:13, structlib.py:44. -/
def int8Pack (n : Int) : Except Err Bytes := packS 8 n
/-- builtins.py:13. -/
def int8Unpack (b : Bytes) : Except Err Int := unpackFromS 8 b
/-- lib.py:24 `oid_pack`. -/
def oidPack (n : Int) : Except Err Bytes := packU 4 n
/-- lib.py:25 `oid_unpack`. -/
def oidUnpack (b : Bytes) : Except Err Int := unpackFromU 4 b

/-- lib.py:26 `tid_pack` = `LH_pack`. -/
def tidPack (t : Int × Int) : Except Err Bytes := do
  let a ← packU 4 t.1
  let b ← packU 2 t.2
  return a ++ b
/-- lib.py:26 `tid_unpack` = `LH_unpack` (`unpack_from`: longer data is accepted). -/
def tidUnpack (b : Bytes) : Except Err (Int × Int) :=
  if b.length < 6 then .error .structError else .ok (beDec (b.take 4), beDec ((b.drop 4).take 2))

/-- A Python float: its IEEE 754 double image. -/
abbrev Dbl := UInt64

/-- `struct` field 'd'. -/
def dblEnc (d : Dbl) : Bytes := beEnc 8 d.toNat
/-- `struct` field 'd' at the beginning of the data. -/
def dblDec (b : Bytes) : Dbl := UInt64.ofNat (beDec (b.take 8))

/-- structlib.py:26-28 `dd_pack`, `ddd_pack`, `dddd_pack`. -/
def dblsPack (l : List Dbl) : Bytes := l.flatMap dblEnc
/-- `n` doubles from the beginning of the data. -/
def dblsDec : Nat → Bytes → List Dbl
  | 0, _ => []
  | n + 1, b => dblDec b :: dblsDec n (b.drop 8)
/-- structlib.py:26-28 `dd_unpack` ... (`unpack_from`). -/
def dblsUnpack (n : Nat) (b : Bytes) : Except Err (List Dbl) :=
  if b.length < 8 * n then .error .structError else .ok (dblsDec n b)

/-- pg_geometry.py:17 `point_pack`. -/
def pointPack (p : Dbl × Dbl) : Bytes := dblsPack [p.1, p.2]
/-- pg_geometry.py:18 `point_unpack`. -/
def pointUnpack (b : Bytes) : Except Err (Dbl × Dbl) := do
  match ← dblsUnpack 2 b with
  | [x, y] => return (x, y)
  | _ => throw .structError
/-- pg_geometry.py:20-26 `box_pack`, `lseg_pack`.  (`Box` itself reorders its corners when constructed: types/geometry.py.) -/
def lsegPack (p : (Dbl × Dbl) × (Dbl × Dbl)) : Bytes := dblsPack [p.1.1, p.1.2, p.2.1, p.2.2]
/-- pg_geometry.py:13-14, 22, 26 `lseg_unpack` with `two_pair`. -/
def lsegUnpack (b : Bytes) : Except Err ((Dbl × Dbl) × (Dbl × Dbl)) := do
  match ← dblsUnpack 4 b with
  | [x, y, z, w] => return ((x, y), (z, w))
  | _ => throw .structError
/-- pg_geometry.py:28-29 `circle_pack`. -/
def circlePack (p : (Dbl × Dbl) × Dbl) : Bytes := dblsPack [p.1.1, p.1.2, p.2]
/-- pg_geometry.py:30-32 `circle_unpack`. -/
def circleUnpack (b : Bytes) : Except Err ((Dbl × Dbl) × Dbl) := do
  match ← dblsUnpack 3 b with
  | [x, y, z] => return ((x, y), z)
  | _ => throw .structError

/-- lib.py:249-258 `varbit_pack`. -/
def varbitPack (x : Int × Bytes) : Except Err Bytes := do
  let h ← longPack x.1
  return h ++ x.2
/-- lib.py:260-268 `varbit_unpack`. -/
def varbitUnpack (data : Bytes) : Except Err (Int × Bytes) := do
  let n ← longUnpack (data.take 4)
  return (n, data.drop 4)

/-! ## Network addresses -/

/-- `bytes((x, ...))`: each must be in range(256). -/
def bytesOf : List Int → Except Err Bytes
  | [] => .ok []
  | x :: r => do
    if x < 0 ∨ 256 ≤ x then throw .valueError
    let t ← bytesOf r
    return UInt8.ofNat x.toNat :: t

/-- lib.py:270-286 `net_pack`. -/
def netPack (family : Nat) (mask : Option Int) (data : Bytes) : Except Err Bytes := do
  let f ← match family with
    | 4 => pure (2 : Int)
    | 6 => pure 3
    | _ => throw .keyError
  let h ← bytesOf [f, mask.getD 0, if mask.isNone then 0 else 1, data.length]
  return h ++ data

/-- lib.py:288-302 `net_unpack`. -/
def netUnpack (data : Bytes) : Except Err (Nat × Nat × Bytes) :=
  match data with
  | family :: mask :: _ :: _ :: rest =>
    if family = 2 then .ok (4, mask.toNat, rest)
    else if family = 3 then .ok (6, mask.toNat, rest)
    else .error .keyError
  | _ => .error .valueError

/-- `ipaddress` objects: an address is its version (4 or 6) and its number. -/
structure IPAddress where
  version : Nat
  num : Nat
  deriving DecidableEq, Repr

/-- The number of bits of an address. -/
def bitsOf (version : Nat) : Nat := if version = 4 then 32 else 128

/-- `a.packed`. -/
def IPAddress.packed (a : IPAddress) : Bytes := beEnc (bitsOf a.version / 8) a.num

/-- `ipaddress.ip_address(bytes)`: four bytes are an IPv4 address, sixteen an IPv6 address. -/
def ipAddress (b : Bytes) : Except Err IPAddress :=
  if b.length = 4 then .ok ⟨4, beDec b⟩
  else if b.length = 16 then .ok ⟨6, beDec b⟩
  else .error .valueError

/-- pg_network.py:11-13 `inet_pack`, for an `ipaddress` address. -/
def inetPack (a : IPAddress) : Except Err Bytes := netPack a.version none a.packed
/-- pg_network.py:19-21 `inet_unpack`. -/
def inetUnpack (data : Bytes) : Except Err IPAddress := do
  let (_, _, d) ← netUnpack data
  ipAddress d

/-- `ipaddress` networks. -/
structure IPNetwork where
  addr : IPAddress
  prefixlen : Nat
  deriving DecidableEq, Repr

/-- `ip_network(bytes).supernet(new_prefix = m)`: an address network has full length; `supernet` of a network of length 0 is
itself; a longer prefix raises; the address is masked. -/
def supernet (a : IPAddress) (m : Nat) : Except Err IPNetwork :=
  if bitsOf a.version < m then .error .valueError
  else
    let d := bitsOf a.version - m
    .ok ⟨⟨a.version, a.num / 2 ^ d * 2 ^ d⟩, m⟩

/-- pg_network.py:15-17 `cidr_pack`, for an `ipaddress` network. -/
def cidrPack (n : IPNetwork) : Except Err Bytes := netPack n.addr.version (some n.prefixlen) n.addr.packed
/-- pg_network.py:23-25 `cidr_unpack`. -/
def cidrUnpack (data : Bytes) : Except Err IPNetwork := do
  let (_, m, d) ← netUnpack data
  let a ← ipAddress d
  supernet a m

/-! ## MAC addresses -/

/-- The value of a hexadecimal digit. -/
def hexVal (c : Char) : Option Nat :=
  if '0' ≤ c ∧ c ≤ '9' then some (c.toNat - 48)
  else if 'a' ≤ c ∧ c ≤ 'f' then some (c.toNat - 87)
  else if 'A' ≤ c ∧ c ≤ 'F' then some (c.toNat - 55)
  else none

/-- The digits of `int(s, 16)`: single underscores between digits are allowed. -/
def hexDigits (acc : Nat) : Str → Option Nat
  | [] => some acc
  | '_' :: c :: r => match hexVal c with
    | some d => hexDigits (acc * 16 + d) r
    | none => none
  | c :: r => match hexVal c with
    | some d => hexDigits (acc * 16 + d) r
    | none => none

/-- ASCII white space. -/
def isSpace (c : Char) : Bool := c = ' ' ∨ ('\t' ≤ c ∧ c ≤ '\r') ∨ ('\x1c' ≤ c ∧ c ≤ '\x1f')

/-- `s.strip()`. -/
def strip (s : Str) : Str := ((s.dropWhile isSpace).reverse.dropWhile isSpace).reverse

/-- `int(s, 16)` without its sign: an optional prefix `0x`, which may be followed by an underscore, then at least one digit. -/
def hexUnsigned (s : Str) : Option Nat :=
  match s with
  | '0' :: 'x' :: r => match r with
    | [] => none
    | '_' :: c :: r => if (hexVal c).isSome then hexDigits 0 (c :: r) else none
    | c :: r => if (hexVal c).isSome then hexDigits 0 (c :: r) else none
  | '0' :: 'X' :: r => match r with
    | [] => none
    | '_' :: c :: r => if (hexVal c).isSome then hexDigits 0 (c :: r) else none
    | c :: r => if (hexVal c).isSome then hexDigits 0 (c :: r) else none
  | [] => none
  | c :: r => if (hexVal c).isSome then hexDigits 0 (c :: r) else none

/-- `int(s, 16)` for ASCII text. -/
def pyInt16 (s : Str) : Except Err Int :=
  match strip s with
  | '-' :: r => match hexUnsigned r with
    | some n => .ok (-(n : Int))
    | none => .error .valueError
  | '+' :: r => match hexUnsigned r with
    | some n => .ok n
    | none => .error .valueError
  | r => match hexUnsigned r with
    | some n => .ok n
    | none => .error .valueError

/-- `[int(p, 16) for p in parts]`. -/
def intsOf : List Str → Except Err (List Int)
  | [] => .ok []
  | p :: r => do
    let n ← pyInt16 p
    let t ← intsOf r
    return n :: t

/-- lib.py:304-335 `macaddr_pack`: the parts.  `none`: the final `else`. -/
def macParts (data : Str) : Option (List Str) :=
  let colon := splitAll ':' data
  let dash := splitAll '-' data
  let dot := splitAll '.' data
  if colon.length = 6 then some colon
  else if dash.length = 6 then some dash
  else match colon with
    | [a, b] => some [a.take 2, (a.drop 2).take 2, a.drop 4, b.take 2, (b.drop 2).take 2, b.drop 4]
    | _ => match dash with
      | [a, b] => some [a.take 2, (a.drop 2).take 2, a.drop 4, b.take 2, (b.drop 2).take 2, b.drop 4]
      | _ => match dot with
        | [a, b, c] => some [a.take 2, a.drop 2, b.take 2, b.drop 2, c.take 2, c.drop 2]
        | _ => if colon.length = 1 then
            some [data.take 2, (data.drop 2).take 2, (data.drop 4).take 2, (data.drop 6).take 2, (data.drop 8).take 2, data.drop 10]
          else none

/-- lib.py:304-337 `macaddr_pack`.  The check of 336-337 (`len(mac_parts) != 6 and ...`) is never true. -/
def macPack (data : Str) : Except Err Bytes :=
  match macParts data with
  | none => .error .valueError
  | some parts => do
    let l ← intsOf parts
    bytesOf l

/-- `'%02x'`, one digit. -/
def hexDigit (n : Nat) : Char := Char.ofNat (if n < 10 then 48 + n else 87 + n)
/-- `'%02x' % b`. -/
def hex2 (b : UInt8) : Str := [hexDigit (b.toNat / 16), hexDigit (b.toNat % 16)]

/-- lib.py:340-350 `macaddr_unpack`. -/
def macUnpack (data : Bytes) : Except Err Str :=
  if data.length ≠ 6 then .error .valueError else .ok (joinWith [':'] (data.map hex2))

/-! ## Records -/

/-- lib.py:385-389: the attributes of `record_pack`. -/
def recordAtts : List (Int × Option Bytes) → Except Err Bytes
  | [] => .ok []
  | (typid, y) :: r => do
    let o ← oidPack typid
    let v ← match y with
      | none => pure nullSeq
      | some d => do
        let l ← longPack d.length
        pure (l ++ d)
    let t ← recordAtts r
    return o ++ v ++ t

/-- lib.py:376-389 `record_pack`. -/
def recordPack (seq : List (Int × Option Bytes)) : Except Err Bytes := do
  let h ← longPack seq.length
  let t ← recordAtts seq
  return h ++ t

/-- lib.py:364-371: the loop of `record_unpack`; it returns the attributes and the final offset. -/
def recordLoop (data : Bytes) : Nat → Nat → Except Err (List (Int × Option Bytes) × Nat)
  | 0, offset => .ok ([], offset)
  | n + 1, offset => do
    let typid ← oidUnpack (slice data offset (offset + 4))
    let offset := offset + 4
    if slice data offset (offset + 4) = nullSeq then
      let (l, o) ← recordLoop data n (offset + 4)
      return ((typid, none) :: l, o)
    else
      let size ← longUnpack (slice data offset (offset + 4))
      let offset := offset + 4
      if size < -1 then throw .valueError
      let att := slice data offset (offset + size.toNat)
      if (att.length : Int) ≠ size then throw .valueError
      let (l, o) ← recordLoop data n (offset + size.toNat)
      return ((typid, some att) :: l, o)

/-- lib.py:352-374 `record_unpack`, consumed entirely (as pq3.py:457 does). -/
def recordUnpack (data : Bytes) : Except Err (List (Int × Option Bytes)) := do
  let columns ← longUnpack data
  let (l, offset) ← recordLoop data columns.toNat 4
  if (data.length : Int) - offset ≠ 0 then throw .valueError
  return l

/-! ## Arrays -/

/-- A raw array: flags, element type, dimensions, lower bounds, elements (lib.py:410-431). -/
structure RawArray where
  flags : Int
  typid : Int
  dims : List Int
  lbs : List Int
  elements : List (Option Bytes)
  deriving DecidableEq, Repr

/-- lib.py:391-408 `elements_pack`, joined. -/
def elementsPack : List (Option Bytes) → Except Err Bytes
  | [] => .ok []
  | none :: r => do
    let t ← elementsPack r
    return nullSeq ++ t
  | some x :: r => do
    let l ← longPack x.length
    let t ← elementsPack r
    return l ++ x ++ t

/-- `b''.join(map(long_pack, l))`. -/
def longsPack : List Int → Except Err Bytes
  | [] => .ok []
  | x :: r => do
    let h ← longPack x
    let t ← longsPack r
    return h ++ t

/-- lib.py:410-436 `array_pack`. -/
def arrayPack (a : RawArray) : Except Err Bytes := do
  let n ← packS 4 a.dims.length
  let f ← packS 4 a.flags
  let t ← packU 4 a.typid
  let d ← longsPack (interlace [a.dims, a.lbs])
  let e ← elementsPack a.elements
  return n ++ f ++ t ++ d ++ e

/-- Python `data[i:j]` for any integers: negative ones count from the end. -/
def pySlice {α} (data : List α) (i j : Int) : List α :=
  let norm (x : Int) : Nat := (if x < 0 then x + data.length else x).toNat
  slice data (norm i) (norm j)

/-- lib.py:438-457 `elements_unpack`, consumed for at most `fuel` elements: `none` if it has not ended then. -/
def elementsUnpack (data : Bytes) : Nat → Int → Option (Except Err (List (Option Bytes)))
  | 0, offset => if (data.length : Int) ≤ offset then some (.ok []) else none
  | fuel + 1, offset =>
    if (data.length : Int) ≤ offset then some (.ok [])
    else
      let lend := pySlice data offset (offset + 4)
      let offset := offset + 4
      if lend = nullSeq then (elementsUnpack data fuel offset).map fun r => r.map (none :: ·)
      else match longUnpack lend with
        | .error e => some (.error e)
        | .ok size => (elementsUnpack data fuel (offset + size)).map fun r => r.map (some (pySlice data offset (offset + size)) :: ·)

/-- lib.py:476-477: `n` longs, eight bytes apart. -/
def strided (data : Bytes) : Nat → Nat → Except Err (List Int)
  | 0, _ => .ok []
  | n + 1, x => do
    let h ← longUnpack (slice data x (x + 4))
    let t ← strided data n (x + 8)
    return h :: t

/-- lib.py:459-478 `array_unpack` with its elements consumed for at most `fuel` elements. -/
def arrayUnpack (fuel : Nat) (data : Bytes) : Option (Except Err RawArray) :=
  if data.length < 12 then some (.error .structError)
  else
    let ndim := toSigned 4 (beDec (data.take 4))
    let flags := toSigned 4 (beDec (slice data 4 8))
    let typid : Int := beDec (slice data 8 12)
    if ndim < 0 then some (.error .valueError)
    else
      let e := 8 * ndim.toNat + 12
      match strided data ndim.toNat 12 with
      | .error e => some (.error e)
      | .ok dims => match strided data ndim.toNat 16 with
        | .error e => some (.error e)
        | .ok lbs => (elementsUnpack data fuel e).map fun r => r.map fun els => ⟨flags, typid, dims, lbs, els⟩

end PG.TypesLib
