import Verif.Model.Py
/-!
# Model of `postgresql/protocol/pbuffer.py`: the message stream
-/
namespace PG.PBuffer
open PG

/-- pbuffer.py:23 `_block = 512`. -/
def block : Nat := 512
/-- pbuffer.py:24 `_limit = _block * 4`. -/
def limit : Nat := block * 4

/-- pbuffer.py:18-27 `pq_message_stream`: `_strio`, `_start`. -/
structure Stream where
  strio : BytesIO := {}
  start : Nat := 0
  deriving DecidableEq, Repr

/-- A message as returned by the stream: (type byte, body).  `message_types[b]` is the one-byte string `bytes((b,))`
(message_types.py:15), represented by the byte itself. -/
abbrev Msg := UInt8 × Bytes

/-- pbuffer.py:29-35 `truncate`. -/
def truncate (s : Stream) : Stream := { strio := s.strio.truncate 0, start := 0 }

/-- pbuffer.py:55-65: the copy loop of `_rtruncate`.  `fuel` bounds the `while True`; `none` = fuel exhausted
(proved unreachable: `rtruncate_isSome`). -/
def rtruncLoop : Nat → BytesIO → Nat → Nat → Option BytesIO
  | 0, _, _, _ => none
  | fuel + 1, f, copyto, copyfrom =>
    let f := f.seek copyfrom
    let (data, f) := f.read block
    let copyfrom := f.pos
    let f := f.seek copyto
    let f := f.write data
    if data.length ≠ block then some f
    else rtruncLoop fuel f f.pos copyfrom

/-- pbuffer.py:37-67 `_rtruncate(amt)` (only called with an explicit amount).  `size - amt` is never negative at the call
sites (the consumed amount is within the buffer, proved). -/
def rtruncate (f : BytesIO) (amt : Nat) : Option BytesIO :=
  let f := f.seekEnd
  let size := f.pos
  if size = amt then some (f.truncate 0)
  else (rtruncLoop (size + 1) f 0 amt).map (fun f => f.truncate (size - amt))

/-- pbuffer.py:16 `xl_unpack`: skip one byte, then an unsigned big-endian 32-bit length. -/
def xlUnpack (header : Bytes) : Nat := beDec (slice header 1 5)

/-- pbuffer.py:69-83 `has_message`. -/
def hasMessage (s : Stream) : Except Err Bool :=
  let f := s.strio.seek s.start
  let (header, f) := f.read 5
  if header.length < 5 then .ok false
  else
    let length := xlUnpack header
    if length < 4 then .error .valueError
    else
      let f := f.seekEnd
      .ok (decide ((f.pos : Int) - s.start ≥ (length : Int) + 1))

/-- pbuffer.py:94-112: the counting loop of `__len__`; `fuel` bounds the `while True` (`nonTermination` when exhausted,
proved unreachable). -/
def lenLoop : Nat → BytesIO → Nat → Except Err Nat
  | 0, _, _ => .error .nonTermination
  | fuel + 1, f, count =>
    let (header, f) := f.read 5
    if header.length < 5 then .ok count
    else
      let length := xlUnpack header
      if length < 4 then .error .valueError
      else
        let f := f.seekRel ((length : Int) - 4 - 1)
        let (one, f) := f.read 1
        if one.length ≠ 1 then .ok count
        else lenLoop fuel f (count + 1)

/-- pbuffer.py:85-112 `__len__`. -/
def len (s : Stream) : Except Err Nat :=
  lenLoop (s.strio.buf.length + 1) (s.strio.seek s.start) 0

/-- pbuffer.py:114-133 `_get_message`. -/
def getMessage (f : BytesIO) : Except Err (Option Msg) × BytesIO :=
  let (header, f) := f.read 5
  if header.length < 5 then (.ok none, f)
  else
    let length := xlUnpack header
    let typ := header.headD 0
    if length < 4 then (.error .valueError, f)
    else
      let length := length - 4
      let (body, f) := f.read length
      if body.length < length then (.ok none, f)
      else (.ok (some (typ, body)), f)

/-- pbuffer.py:136-138, 147-149, 159-161: compaction before a read.  Falls back to the unchanged buffer if the copy loop
ran out of fuel (proved unreachable). -/
def compact (s : Stream) : Stream :=
  if s.start > limit then
    match rtruncate s.strio s.start with
    | some f => { strio := f, start := 0 }
    | none => s
  else s

/-- pbuffer.py:135-144 `next_message`. -/
def nextMessage (s : Stream) : Except Err (Option Msg) × Stream :=
  let s := compact s
  match getMessage (s.strio.seek s.start) with
  | (.error e, f) => (.error e, { s with strio := f })
  | (.ok none, f) => (.ok none, { s with strio := f })
  | (.ok (some m), f) => (.ok (some m), { strio := f, start := f.pos })

/-- pbuffer.py:146-156 `__next__`. -/
def next (s : Stream) : Except Err Msg × Stream :=
  let s := compact s
  match getMessage (s.strio.seek s.start) with
  | (.error e, f) => (.error e, { s with strio := f })
  | (.ok none, f) => (.error .stopIteration, { s with strio := f })
  | (.ok (some m), f) => (.ok m, { strio := f, start := f.pos })

/-- pbuffer.py:166-171: the loop of `read`.  Recursion on the remaining count `num - len(l)`. -/
def readLoop : Nat → BytesIO → List Msg → Nat → Except Err (List Msg × Nat) × BytesIO
  | 0, f, l, ns => (.ok (l, ns), f)
  | num + 1, f, l, ns =>
    match getMessage f with
    | (.error e, f) => (.error e, f)
    | (.ok none, f) => (.ok (l, ns), f)
    | (.ok (some m), f) => readLoop num f (l ++ [m]) (ns + (5 + m.2.length))

/-- pbuffer.py:158-173 `read(num)`. -/
def read (s : Stream) (num : Nat := 0xFFFFFFFF) : Except Err (List Msg) × Stream :=
  let s := compact s
  match readLoop num (s.strio.seek s.start) [] s.start with
  | (.error e, f) => (.error e, { s with strio := f })
  | (.ok (l, ns), f) => (.ok l, { strio := f, start := ns })

/-- pbuffer.py:175-178 `write`. -/
def write (s : Stream) (data : Bytes) : Stream := { s with strio := s.strio.seekEnd.write data }

/-- pbuffer.py:180-182 `getvalue`. -/
def getvalue (s : Stream) : Bytes × Stream :=
  let (d, f) := (s.strio.seek s.start).readAll
  (d, { s with strio := f })

end PG.PBuffer
