import Verif.Model.Struct
import Verif.Model.Itertools
/-!
# Model of `postgresql/types/io/contrib_hstore.py`, `stdlib_jsonb.py` and `split_sized_data` of `python/structlib.py`

`typio.encode` and `typio.decode`, the codec of the connection, are parameters.
-/
namespace PG.Hstore
open PG

/-- structlib.py:83-108 `split_sized_data`: what the generator yields, and the exception that ends it, if one does. -/
def splitSized : Nat → Bytes → List (Option Bytes) × Option Err
  | 0, _ => ([], none)
  | fuel + 1, v =>
    if v = [] then ([], none)                                      -- while v:
    else match unpackFromU 4 v with
      | .error e => ([], some e)
      | .ok l =>
        if l = 0xFFFFFFFF then
          let r := splitSized fuel (v.drop 4)
          (none :: r.1, r.2)
        else
          let d := slice v 4 (l.toNat + 4)
          if d.length < l.toNat then ([], some .valueError)
          else
            let r := splitSized fuel (v.drop (l.toNat + 4))
            (some d :: r.1, r.2)

/-- structlib.py:83-108, run to its end (every step consumes at least four bytes). -/
def splitSizedData (v : Bytes) : List (Option Bytes) × Option Err := splitSized (v.length + 1) v

/-- contrib_hstore.py:20 and 37: `f(v) if v is not None else None`. -/
def mapOpt {α β : Type} (f : α → Except Err β) : Option α → Except Err (Option β)
  | none => .ok none
  | some w => do
    let c ← f w
    return some c

variable {τ : Type} [DecidableEq τ] (encode : τ → Except Err Bytes) (decode : Bytes → Except Err τ)

/-- contrib_hstore.py:19-22: the list comprehension `encoded`. -/
def encodePairs : List (τ × Option τ) → Except Err (List (Bytes × Option Bytes))
  | [] => .ok []
  | (k, v) :: r => do
    let a ← encode k
    let b ← mapOpt encode v
    let l ← encodePairs r
    return (a, b) :: l

/-- contrib_hstore.py:23-27: the pairs, joined. -/
def joinPairs : List (Bytes × Option Bytes) → Except Err Bytes
  | [] => .ok []
  | (k, none) :: r => do
    let a ← packU 4 k.length
    let l ← joinPairs r
    return a ++ k ++ [255, 255, 255, 255] ++ l
  | (k, some v) :: r => do
    let a ← packU 4 k.length
    let b ← packU 4 v.length
    let l ← joinPairs r
    return a ++ k ++ b ++ v ++ l

/-- contrib_hstore.py:13-27 `pack_hstore`; a mapping is the list of its items, a sequence of pairs is itself. -/
def packHstore (x : List (τ × Option τ)) : Except Err Bytes := do
  let encoded ← encodePairs encode x
  let n ← packU 4 encoded.length
  let b ← joinPairs encoded
  return n ++ b

/-- `decode(y)`; `decode(None)` raises TypeError. -/
def decodeOpt : Option Bytes → Except Err τ
  | none => .error .typeError
  | some b => decode b

/-- contrib_hstore.py:36-39: the dict comprehension, over the chunks. -/
def comprehension : List (List (Option Bytes)) → List (τ × Option τ) → Except Err (List (τ × Option τ))
  | [], d => .ok d
  | [] :: r, d => comprehension r d                                -- if y
  | [k] :: _, _ => do
    let _ ← decodeOpt decode k
    .error .indexError                                             -- y[1]
  | (k :: v :: _) :: r, d => do
    let a ← decodeOpt decode k
    let b ← mapOpt decode v
    comprehension r (dictSet d a b)

/-- contrib_hstore.py:36-39: the comprehension over what the generator yields; an exception of the generator comes when the chunk
it belongs to is read. -/
def consume (items : List (Option Bytes)) (end_ : Option Err) : Except Err (List (τ × Option τ)) :=
  match end_ with
  | none => comprehension decode (Itertools.chunk items 2) []
  | some e => do
    let _ ← comprehension decode ((Itertools.chunk items 2).filter (·.length = 2)) []
    .error e

/-- contrib_hstore.py:29-42 `unpack_hstore`. -/
def unpackHstore (x : Bytes) : Except Err (List (τ × Option τ)) := do
  let n ← unpackFromU 4 x
  let s := splitSizedData (x.drop 4)
  let r ← consume decode s.1 s.2
  if r.length ≠ n then .error .valueError
  else return r

/-! ## jsonb -/

/-- stdlib_jsonb.py:4-6 `jsonb_pack`. -/
def jsonbPack (x : τ) : Except Err Bytes := do
  let j ← encode x
  return 1 :: j

/-- stdlib_jsonb.py:9-12 `jsonb_unpack`. -/
def jsonbUnpack (x : Bytes) : Except Err τ :=
  match x with
  | [] => .error .indexError
  | v :: r => if v ≠ 1 then .error .valueError else decode r

end PG.Hstore
