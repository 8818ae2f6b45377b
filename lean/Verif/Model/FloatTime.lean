import Verif.Model.DateTime
/-!
# Model of the float formats of date and time types, and of the choice between formats

`types/io/lib.py` 76-87, 97-134, 180-197 and `types/io/stdlib_datetime.py` 210-213, 215-289.

A Python `float` is the rational number it stands for; every arithmetic operation is the exact one followed by the IEEE 754
rounding to a binary64 (to nearest, ties to even; gradual underflow; overflow is not modelled: nothing here comes near 2^1024).
The eight bytes of a double on the wire are modelled by its value (`Wire`): `struct`'s `d` format, which is a bijection between
the two, is not modelled.
-/
namespace PG.FloatTime
open PG PG.DateTime

/-- A power of two. -/
def pow2 (k : Int) : Rat := (2 : Rat) ^ k

/-- The absolute value. -/
def absR (x : Rat) : Rat := if x < 0 then -x else x

/-- The binary exponent of a number that is not zero (IEEE 754). -/
def expo (x : Rat) : Int :=
  let c := (Nat.log2 x.num.natAbs : Int) - (Nat.log2 x.den : Int)
  if absR x < pow2 c then c - 1 else c

/-- The nearest integer, the even one if there are two. -/
def halfEven (y : Rat) : Int :=
  let n := y.floor
  let r := y - n
  if r < 1 / 2 then n else if 1 / 2 < r then n + 1 else if n % 2 = 0 then n else n + 1

/-- The exponent of the last binary place a double of the magnitude of `x` has. -/
def place (x : Rat) : Int := max (expo x - 52) (-1074)

/-- Rounding to a binary64: the result of every float operation. -/
def rnd (x : Rat) : Rat := if x = 0 then 0 else (halfEven (x / pow2 (place x)) : Rat) * pow2 (place x)

/-- lib.py:85-87 `mktime`: `float(s[0]) + (s[1] / 1000000.0)`. -/
def mktime (s : Int × Int) : Rat := rnd (rnd s.1 + rnd ((s.2 : Rat) / 1000000))

/-- lib.py:76-79 `mktimetuple`: `(floor(ts), int(1000000 * (ts - floor(ts))))`; the product is not negative, so `int` is `floor`. -/
def mktimetuple (t : Rat) : Int × Int :=
  let seconds := t.floor
  (seconds, (rnd (1000000 * rnd (t - rnd seconds))).floor)

/-- A double on the wire. -/
inductive Wire where
  | num (t : Rat)
  | posInf
  | negInf
  | nan
  deriving DecidableEq

/-- lib.py:94 `time_pack`: `compose((mktime, double_pack))`. -/
def timePack64f (s : Int × Int) : Wire := .num (mktime s)
/-- lib.py:95 `time_unpack`: `compose((double_unpack, mktimetuple))`; `floor` of an infinity raises OverflowError, of a NaN ValueError. -/
def timeUnpack64f : Wire → Except Err (Int × Int)
  | .num t => .ok (mktimetuple t)
  | .posInf => .error .overflowError
  | .negInf => .error .overflowError
  | .nan => .error .valueError

/-- stdlib_datetime.py:216-220: packing a `time`. -/
def timePack (x : Time) : Wire := timePack64f (timeTuple x)
/-- stdlib_datetime.py:216-220: unpacking a `time`. -/
def timeUnpack (w : Wire) : Except Err Time := do
  let s ← timeUnpack64f w
  timeOf s

/-- stdlib_datetime.py:221-225, lib.py:180-188: packing a `timetz`; the zone is a four byte integer. -/
def timetzPack (x : Time) (offset : Int) : Except Err (Wire × Bytes) := do
  let z ← packS 4 offset
  return (timePack64f (timeTuple x), z)
/-- stdlib_datetime.py:221-225, lib.py:190-197: unpacking a `timetz`. -/
def timetzUnpack (b : Wire × Bytes) : Except Err (Time × Int) := do
  let tz ← unpackFromS 4 b.2
  let s ← timeUnpack64f b.1
  let t ← timeOf s
  return (t, fixedOffset tz)

/-- stdlib_datetime.py:210-213, 226-230: packing a `timestamp`. -/
def timestampPack : Arg Int → Except Err Wire
  | .str s => if s = "infinity" then .ok .posInf else if s = "-infinity" then .ok .negInf else .error .typeError
  | .val x => if x = infinityDt then .ok .posInf else if x = 0 then .ok .negInf else .ok (timePack64f (timestampTuple x))
/-- stdlib_datetime.py:210-213, 226-230: unpacking a `timestamp`. -/
def timestampUnpack (w : Wire) : Except Err Int :=
  if w = .posInf then .ok infinityDt
  else if w = .negInf then .ok 0
  else do
    let s ← timeUnpack64f w
    timestampOf s

/-- stdlib_datetime.py:231-235: packing a `timestamptz`. -/
def timestamptzPack : Arg (Int × Int) → Except Err Wire
  | .str s => if s = "infinity" then .ok .posInf else if s = "-infinity" then .ok .negInf else .error .attributeError
  | .val x => do
    let t ← timestamptzTuple x.1 x.2
    return timePack64f t
/-- stdlib_datetime.py:231-235: unpacking a `timestamptz`. -/
def timestamptzUnpack (w : Wire) : Except Err Aware :=
  if w = .posInf then .ok (.naive infinityDt)
  else if w = .negInf then .ok (.naive 0)
  else do
    let s ← timeUnpack64f w
    let x ← timestampOf s
    return .aware x 0

/-- stdlib_datetime.py:236-240, lib.py:97-103: packing an `interval`: the seconds, the days and the months. -/
def intervalPack (x : Timedelta) : Except Err (Wire × Bytes × Bytes) := do
  let d ← packS 4 x.days
  let m ← packS 4 0
  return (timePack64f (x.seconds, x.us), d, m)
/-- stdlib_datetime.py:236-240, lib.py:105-112: unpacking an `interval`. -/
def intervalUnpack (b : Wire × Bytes × Bytes) : Except Err Timedelta := do
  let day ← unpackFromS 4 b.2.1
  let month ← unpackFromS 4 b.2.2
  let s ← timeUnpack64f b.1
  intervalOf month day s

/-- stdlib_datetime.py:241-245, lib.py:114-125: packing an `interval` without a day field: the seconds and the months. -/
def intervalNodayPack (x : Timedelta) : Except Err (Wire × Bytes) := do
  let s := if x.days ≠ 0 then x.seconds + x.days * 24 * 60 * 60 else x.seconds
  let m ← packS 4 0
  return (timePack64f (s, x.us), m)
/-- stdlib_datetime.py:241-245, lib.py:127-134: unpacking an `interval` without a day field. -/
def intervalNodayUnpack (b : Wire × Bytes) : Except Err Timedelta := do
  let month ← unpackFromS 4 b.2
  let s ← timeUnpack64f b.1
  intervalOf month 0 s

/-! ## Which format -/

/-- The connection's idea of the `integer_datetimes` setting: absent, a `bool`, or the server's text. -/
inductive Setting where
  | absent
  | bool (b : Bool)
  | text (s : String)
  deriving DecidableEq

/-- The order of the first two components of Python tuples (longer tuples with equal beginnings are greater). -/
def geTwo (v : List Nat) (a b : Nat) : Bool :=
  match v with
  | [] => false
  | [x] => decide (a < x)
  | x :: y :: _ => decide (a < x) || (decide (x = a) && decide (b ≤ y))

/-- stdlib_datetime.py:281-289 `time_type`; `version`: `database.version_info` (its integer components); ASCII text. -/
def timeType (setting : Setting) (version : List Nat) : Bool :=
  match setting with
  | .absent => geTwo version 9 0
  | .bool b => b
  | .text s => decide (s.toLower ∈ ["on", "true", "t"])

/-- stdlib_datetime.py:295 `version_info[:2] <= (8,0)`. -/
def leTwo (v : List Nat) (a b : Nat) : Bool :=
  match v with
  | [] => true
  | [x] => decide (x ≤ a)
  | x :: y :: _ => decide (x < a) || (decide (x = a) && decide (y ≤ b))

/-- The formats of an `interval`. -/
inductive Format where
  | int64 | float64 | int64NoDay | float64NoDay
  deriving DecidableEq

/-- stdlib_datetime.py:291-292 `select_format`: the entry of `id_to_io` for time, timetz, timestamp, timestamptz. -/
def selectFormat (setting : Setting) (version : List Nat) : Format :=
  if timeType setting version then .int64 else .float64

/-- stdlib_datetime.py:294-295 `select_day_format`: the entry of `id_to_io` for interval. -/
def selectDayFormat (setting : Setting) (version : List Nat) : Format :=
  if timeType setting version then
    if leTwo version 8 0 then .int64NoDay else .int64
  else
    if leTwo version 8 0 then .float64NoDay else .float64

end PG.FloatTime
