import Verif.Model.Py
/-!
# Model of `postgresql/python/structlib.py` and of the `bytes`/`str` splitting built-ins it is used with
-/
namespace PG

/-- structlib.py:18-20 (`unpack_from` on a one-field big-endian struct): reads the first `k` bytes, further bytes are
ignored, fewer raise `struct.error`. -/
def unpackFromU (k : Nat) (b : Bytes) : Except Err Int :=
  if b.length < k then .error .structError else .ok (beDec (b.take k))

/-- The signed variant of `unpackFromU`. -/
def unpackFromS (k : Nat) (b : Bytes) : Except Err Int :=
  if b.length < k then .error .structError else .ok (toSigned k (beDec (b.take k)))

/-- structlib.py:79 `ushort_pack`. -/
abbrev ushortPack (n : Int) : Except Err Bytes := packU 2 n
/-- structlib.py:79 `ushort_unpack`. -/
abbrev ushortUnpack (b : Bytes) : Except Err Int := unpackFromU 2 b
/-- structlib.py:81 `ulong_pack`. -/
abbrev ulongPack (n : Int) : Except Err Bytes := packU 4 n
/-- structlib.py:81 `ulong_unpack`. -/
abbrev ulongUnpack (b : Bytes) : Except Err Int := unpackFromU 4 b
/-- structlib.py:80 `long_pack`. -/
abbrev longPack (n : Int) : Except Err Bytes := packS 4 n
/-- structlib.py:80 `long_unpack`. -/
abbrev longUnpack (b : Bytes) : Except Err Int := unpackFromS 4 b
/-- structlib.py:78 `short_pack`. -/
abbrev shortPack (n : Int) : Except Err Bytes := packS 2 n
/-- structlib.py:78 `short_unpack`. -/
abbrev shortUnpack (b : Bytes) : Except Err Int := unpackFromS 2 b

/-- structlib.py:7 `null_sequence`. -/
def nullSeq : Bytes := [255, 255, 255, 255]

/-- The part before the first `sep`, and the part after it if there is one (`x.partition(sep)`, `x.index(sep)`). -/
def breakOn {α} [DecidableEq α] (sep : α) : List α → List α × Option (List α)
  | [] => ([], none)
  | x :: xs => if x = sep then ([], some xs) else
    let r := breakOn sep xs
    (x :: r.1, r.2)

/-- Python `x.split(sep, n)` for a one-element separator. -/
def splitMax {α} [DecidableEq α] (sep : α) : Nat → List α → List (List α)
  | 0, b => [b]
  | n + 1, b =>
    match breakOn sep b with
    | (pre, some rest) => pre :: splitMax sep n rest
    | (pre, none) => [pre]

/-- Python `x.split(sep)` for a one-element separator. -/
def splitAll {α} [DecidableEq α] (sep : α) (b : List α) : List (List α) := splitMax sep b.length b

/-- Python `sep.join(parts)`. -/
def joinWith {α} (sep : List α) : List (List α) → List α
  | [] => []
  | [x] => x
  | x :: y :: r => x ++ sep ++ joinWith sep (y :: r)

/-- A Python `dict` as an association list in insertion order: `d[k] = v`. -/
def dictSet {κ β} [DecidableEq κ] (d : List (κ × β)) (k : κ) (v : β) : List (κ × β) :=
  match d with
  | [] => [(k, v)]
  | (k', v') :: r => if k' = k then (k, v) :: r else (k', v') :: dictSet r k v

/-- `dict(pairs)`. -/
def dictOf {κ β} [DecidableEq κ] (ps : List (κ × β)) : List (κ × β) := ps.foldl (fun d p => dictSet d p.1 p.2) []

/-- `d.get(k)`. -/
def dictGet {κ β} [DecidableEq κ] (d : List (κ × β)) (k : κ) : Option β :=
  match d with
  | [] => none
  | (k', v') :: r => if k' = k then some v' else dictGet r k

end PG
