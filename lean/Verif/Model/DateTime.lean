import Verif.Model.Struct
/-!
# Model of `postgresql/types/io/stdlib_datetime.py` (integer times), with the routines of `types/io/lib.py` and
`python/datetime.py` it uses

`datetime` objects: a date is its proleptic Gregorian ordinal; a naive datetime is the number of microseconds since
0001-01-01 00:00; an aware one has an offset from UTC in seconds as well; a `timedelta` is normalized as in Python.
The float formats (servers before 8.4 or built without integer times) are in `FloatTime`. Not modelled: calendar fields, the conversion of naive
datetimes to `timestamptz` (system time zone).
-/
namespace PG.DateTime
open PG

/-- Microseconds in a second. -/
def usec : Int := 1000000
/-- Microseconds in a day. -/
def usDay : Int := 86400000000
/-- `datetime.date.max.toordinal()`. -/
def maxOrd : Int := 3652059
/-- stdlib_datetime.py:42 `pg_date_offset`: the ordinal of 2000-01-01. -/
def pgOrd : Int := 730120
/-- stdlib_datetime.py:39 `pg_epoch_datetime`, in microseconds. -/
def pgEpoch : Int := (pgOrd - 1) * usDay
/-- python/datetime.py:8 `infinity_datetime` (the last microsecond of 9999). -/
def infinityDt : Int := maxOrd * usDay - 1

/-- lib.py:70 `time64_infinity`. -/
def time64Infinity : Bytes := [127, 255, 255, 255, 255, 255, 255, 255]
/-- lib.py:71 `time64_negative_infinity`. -/
def time64NegInfinity : Bytes := [128, 0, 0, 0, 0, 0, 0, 0]
/-- lib.py:72 `date_infinity`. -/
def dateInfinity : Bytes := [127, 255, 255, 255]
/-- lib.py:73 `date_negative_infinity`. -/
def dateNegInfinity : Bytes := [128, 0, 0, 0]

/-- A Python `timedelta` (0 ≤ seconds < 86400, 0 ≤ us < 1000000). -/
structure Timedelta where
  days : Int
  seconds : Int
  us : Int
  deriving DecidableEq, Repr

/-- `timedelta(days, seconds, microseconds)`: normalization; too many days raise OverflowError. -/
def mkTimedelta (days seconds us : Int) : Except Err Timedelta :=
  let t := days * usDay + seconds * usec + us
  let d := t / usDay
  if d < -999999999 ∨ 999999999 < d then .error .overflowError
  else .ok ⟨d, t % usDay / usec, t % usec⟩

/-- The microseconds of a `timedelta`. -/
def Timedelta.total (d : Timedelta) : Int := d.days * usDay + d.seconds * usec + d.us

/-- `datetime + timedelta`: out of the years 1 to 9999 raises OverflowError. -/
def addDt (x : Int) (d : Timedelta) : Except Err Int :=
  let y := x + d.total
  if y < 0 ∨ maxOrd * usDay ≤ y then .error .overflowError else .ok y

/-- `datetime - datetime` as a normalized `timedelta` (it always fits). -/
def subDt (x y : Int) : Timedelta := ⟨(x - y) / usDay, (x - y) % usDay / usec, (x - y) % usec⟩

/-- An argument: a date or datetime, or a string. -/
inductive Arg (α : Type) where
  | val (a : α)
  | str (s : String)
  deriving DecidableEq, Repr

/-! ## date -/

/-- stdlib_datetime.py:81-86 `date_pack`. -/
def datePack : Arg Int → Except Err Bytes
  | .str s => if s = "infinity" then .ok dateInfinity else if s = "-infinity" then .ok dateNegInfinity else .error .attributeError
  | .val o => if o = maxOrd then .ok dateInfinity else if o = 1 then .ok dateNegInfinity else longPack (o - pgOrd)

/-- `datetime.date.fromordinal`. -/
def fromOrdinal (n : Int) : Except Err Int := if n < 1 ∨ maxOrd < n then .error .valueError else .ok n

/-- stdlib_datetime.py:88-94 `date_unpack`. -/
def dateUnpack (x : Bytes) : Except Err Int :=
  if x = dateInfinity then .ok maxOrd
  else if x = dateNegInfinity then .ok 1
  else do
    let n ← longUnpack x
    fromOrdinal (n + pgOrd)

/-! ## timestamp -/

/-- lib.py:92-94 `mktime64`. -/
def mktime64 (s : Int × Int) : Int := s.1 * 1000000 + s.2
/-- lib.py:84-86 `mktimetuple64`: `divmod(ts, 1000000)`. -/
def mktimetuple64 (ts : Int) : Int × Int := (ts / 1000000, ts % 1000000)
/-- lib.py:136-137 `time64_pack`. -/
def time64Pack (s : Int × Int) : Except Err Bytes := packS 8 (mktime64 s)
/-- lib.py:138-139 `time64_unpack`. -/
def time64Unpack (data : Bytes) : Except Err (Int × Int) := do
  let n ← unpackFromS 8 data
  return mktimetuple64 n

/-- stdlib_datetime.py:96-104 `timestamp_pack`. -/
def timestampTuple (x : Int) : Int × Int :=
  let d := subDt x pgEpoch
  (d.days * 86400 + d.seconds, d.us)
/-- stdlib_datetime.py:106-113 `timestamp_unpack` (also 127-134 `timestamptz_unpack`). -/
def timestampOf (s : Int × Int) : Except Err Int := do
  let d ← mkTimedelta 0 s.1 s.2
  addDt pgEpoch d

/-- stdlib_datetime.py:198-202, 255-259: packing a `timestamp`. -/
def timestampPack : Arg Int → Except Err Bytes
  | .str s => if s = "infinity" then .ok time64Infinity else if s = "-infinity" then .ok time64NegInfinity else .error .typeError
  | .val x => if x = infinityDt then .ok time64Infinity else if x = 0 then .ok time64NegInfinity else time64Pack (timestampTuple x)
/-- stdlib_datetime.py:255-259: unpacking a `timestamp`. -/
def timestampUnpack (b : Bytes) : Except Err Int :=
  if b = time64Infinity then .ok infinityDt
  else if b = time64NegInfinity then .ok 0
  else do
    let s ← time64Unpack b
    timestampOf s

/-! ## timestamptz -/

/-- A datetime with time zone: local microseconds and offset from UTC in seconds; or a naive one. -/
inductive Aware where
  | aware (local_ offset : Int)
  | naive (x : Int)
  deriving DecidableEq, Repr

/-- stdlib_datetime.py:115-125 `timestamptz_pack`: `x.astimezone(UTC)`, which raises OverflowError out of range. -/
def timestamptzTuple (local_ offset : Int) : Except Err (Int × Int) :=
  let u := local_ - offset * usec
  if u < 0 ∨ maxOrd * usDay ≤ u then .error .overflowError else .ok (timestampTuple u)

/-- stdlib_datetime.py:260-264: packing a `timestamptz`; the constants are naive and differ from every aware datetime. -/
def timestamptzPack : Arg (Int × Int) → Except Err Bytes
  | .str s => if s = "infinity" then .ok time64Infinity else if s = "-infinity" then .ok time64NegInfinity else .error .attributeError
  | .val x => do
    let t ← timestamptzTuple x.1 x.2
    time64Pack t
/-- stdlib_datetime.py:260-264: unpacking a `timestamptz`. -/
def timestamptzUnpack (b : Bytes) : Except Err Aware :=
  if b = time64Infinity then .ok (.naive infinityDt)
  else if b = time64NegInfinity then .ok (.naive 0)
  else do
    let s ← time64Unpack b
    let x ← timestampOf s
    return .aware x 0

/-! ## time, timetz -/

/-- A Python `time` without time zone. -/
structure Time where
  hour : Int
  minute : Int
  second : Int
  us : Int
  deriving DecidableEq, Repr

/-- `datetime.time(h, m, s, us)`. -/
def mkTime (h m s us : Int) : Except Err Time :=
  if 0 ≤ h ∧ h < 24 ∧ 0 ≤ m ∧ m < 60 ∧ 0 ≤ s ∧ s < 60 ∧ 0 ≤ us ∧ us < 1000000 then .ok ⟨h, m, s, us⟩ else .error .valueError

/-- stdlib_datetime.py:136-143 `time_pack`. -/
def timeTuple (x : Time) : Int × Int := (x.hour * 3600 + x.minute * 60 + x.second, x.us)
/-- stdlib_datetime.py:145-153 `time_unpack`. -/
def timeOf (s : Int × Int) : Except Err Time :=
  let minutes := s.1 / 60
  mkTime (minutes / 60) (minutes % 60) (s.1 % 60) s.2

/-- stdlib_datetime.py:245-249. -/
def timePack (x : Time) : Except Err Bytes := time64Pack (timeTuple x)
/-- stdlib_datetime.py:245-249. -/
def timeUnpack (b : Bytes) : Except Err Time := do
  let s ← time64Unpack b
  timeOf s

/-- structlib.py:37 `ql_pack`. -/
def qlPack (q l : Int) : Except Err Bytes := do
  let a ← packS 8 q
  let b ← packS 4 l
  return a ++ b
/-- structlib.py:37 `ql_unpack`. -/
def qlUnpack (b : Bytes) : Except Err (Int × Int) :=
  if b.length < 12 then .error .structError
  else .ok (toSigned 8 (beDec (b.take 8)), toSigned 4 (beDec ((b.drop 8).take 4)))

/-- stdlib_datetime.py:178-187 `timetz_pack`, lib.py:197-205 `timetz64_pack`; `offset`: `x.tzinfo.utcoffset(x)` in whole seconds. -/
def timetzPack (x : Time) (offset : Int) : Except Err Bytes := qlPack (mktime64 (timeTuple x)) offset
/-- python/datetime.py:15-21 `FixedOffset(offset).utcoffset(..)`, in seconds. -/
def fixedOffset (offset : Int) : Int := offset / 60 * 60
/-- stdlib_datetime.py:189-198 `timetz_unpack`, lib.py:207-214 `timetz64_unpack`. -/
def timetzUnpack (b : Bytes) : Except Err (Time × Int) := do
  let (ts, tz) ← qlUnpack b
  let t ← timeOf (mktimetuple64 ts)
  return (t, fixedOffset tz)

/-! ## interval -/

/-- structlib.py:33 `qll_pack`. -/
def qllPack (q l m : Int) : Except Err Bytes := do
  let a ← packS 8 q
  let b ← packS 4 l
  let c ← packS 4 m
  return a ++ b ++ c
/-- structlib.py:33 `qll_unpack`. -/
def qllUnpack (b : Bytes) : Except Err (Int × Int × Int) :=
  if b.length < 16 then .error .structError
  else .ok (toSigned 8 (beDec (b.take 8)), toSigned 4 (beDec ((b.drop 8).take 4)), toSigned 4 (beDec ((b.drop 12).take 4)))

/-- stdlib_datetime.py:155-160 `interval_pack`, lib.py:141-147 `interval64_pack`. -/
def intervalPack (x : Timedelta) : Except Err Bytes := qllPack (mktime64 (x.seconds, x.us)) x.days 0
/-- stdlib_datetime.py:162-176 `interval_unpack` (its warning for months is not modelled). -/
def intervalOf (months days : Int) (s : Int × Int) : Except Err Timedelta := mkTimedelta (days + months * 30) s.1 s.2
/-- lib.py:149-156 `interval64_unpack`. -/
def intervalUnpack (b : Bytes) : Except Err Timedelta := do
  let (t, day, month) ← qllUnpack b
  intervalOf month day (mktimetuple64 t)

/-- lib.py:158-169 `interval64_noday_pack`. -/
def intervalNodayPack (x : Timedelta) : Except Err Bytes :=
  let s := if x.days ≠ 0 then x.seconds + x.days * 24 * 60 * 60 else x.seconds
  qlPack (mktime64 (s, x.us)) 0
/-- lib.py:171-178 `interval64_noday_unpack`. -/
def intervalNodayUnpack (b : Bytes) : Except Err Timedelta := do
  let (t, month) ← qlUnpack b
  intervalOf month 0 (mktimetuple64 t)

end PG.DateTime
