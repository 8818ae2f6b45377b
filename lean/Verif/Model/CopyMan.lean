import Verif.Model.PBuffer
/-!
# Model of `postgresql/copyman.py`: `WireState` and `ProtocolProducer`
-/
namespace PG.CopyMan
open PG

/-- copyman.py:160, 246-250 `WireState`, with the default condition: the byte is not that of CopyData. -/
structure WS where
  remaining : Int
  fragment : Bytes
  final : Option Bytes
  deriving DecidableEq, Repr

/-- copyman.py:246-250 `__init__`. -/
def WS.init : WS := ⟨0, [], none⟩

/-- `CopyData.type[0]`. -/
def copyType : UInt8 := 100

/-- What the loop leaves: `remaining_bytes`, `size_fragment`, `final_view` and `nmessages`. -/
structure Out where
  remaining : Int
  fragment : Bytes
  final : Option Bytes
  n : Nat
  deriving DecidableEq, Repr

/-- copyman.py:201-215: inside of a message; the rest of the view, its length, `remaining_bytes` and `nmessages`. -/
def inside (view : Bytes) (vlen remaining : Int) (n : Nat) : Bytes × Int × Int × Nat :=
  if remaining ≠ 0 then
    let rb := remaining - vlen
    if rb ≤ 0 then (view.drop remaining.toNat, -rb, 0, n + 1) else (view.drop remaining.toNat, 0, rb, n)
  else (view, vlen, remaining, n)

/-- copyman.py:200-237: the loop over the view. -/
def loop : Nat → Bytes → Int → Int → Bytes → Nat → Except Err Out
  | 0, _, _, _, _, _ => .error .nonTermination
  | fuel + 1, view, vlen, remaining, fragment, n =>
    match inside view vlen remaining n with
    | ([], _, remaining, n) => .ok ⟨remaining, fragment, none, n⟩
    | (x :: r, vlen, remaining, n) =>
      if x ≠ copyType then .ok ⟨remaining, fragment, some (x :: r), n⟩
      else if vlen < 5 then .ok ⟨-1, fragment ++ r, none, n⟩
      else loop fuel (x :: r) vlen (beDec (r.take 4) + 1) fragment n

/-- copyman.py:174-196: `remaining_bytes` and `size_fragment` when the loop begins. -/
def carry (s : WS) (view : Bytes) : Int × Bytes :=
  if s.remaining = -1 then
    let f := s.fragment ++ view.take (4 - s.fragment.length)
    if f.length = 4 then ((beDec f : Int) - s.fragment.length, []) else (-1, f)
  else (s.remaining, s.fragment)

/-- copyman.py:162-244 `update`: the new state and the number of messages that ended. -/
def update (s : WS) (view : Bytes) : Except Err (WS × Nat) :=
  match s.final with
  | some _ => .error .runtimeError
  | none =>
    match carry s view with
    | (remaining, fragment) =>
      if 0 ≤ remaining then do
        let o ← loop (view.length + 2) view view.length remaining fragment 0
        return (⟨o.remaining, o.fragment, o.final⟩, o.n)
      else .ok (⟨remaining, fragment, none⟩, 0)

/-- A stream handed over in chunks. -/
def track : WS → List Bytes → Except Err (WS × Nat)
  | s, [] => .ok (s, 0)
  | s, c :: cs => do
    let (s, n) ← update s c
    let (s, m) ← track s cs
    return (s, n + m)

/-- copyman.py:372-407 `realign`: what is given back to the producer's connection (`recover`) and what the receivers still get.
`none` is an aligned producer (`_state` is None). -/
def realign (st : Option WS) : Except Err (Bytes × Bytes) :=
  match st with
  | none => .ok ([], [])
  | some s =>
    if s.final.getD [] ≠ [] then .ok (s.final.getD [], [])
    else if s.remaining = -1 then
      let header := s.fragment ++ List.replicate (3 - s.fragment.length) 0 ++ [4]
      if header.length ≠ 4 then .error .structError
      else
        .ok (copyType :: s.fragment, header.drop s.fragment.length ++ List.replicate (beDec header - 4) 0)
    else if 0 < s.remaining then do
      let l ← packU 4 (s.remaining + 4)
      return (copyType :: l, List.replicate s.remaining.toNat 0)
    else .ok ([], [])

/-- The part of `ProtocolProducer` that `process_copy_data` changes, and what `recover` was called with (copyman.py:409-421). -/
structure Prod where
  state : Option WS
  totalMessages : Nat
  totalBytes : Nat
  recovered : Option Bytes
  deriving DecidableEq, Repr

/-- copyman.py:409-421 `process_copy_data`: the view to publish. -/
def processCopyData (p : Prod) (view : Bytes) : Except Err (Bytes × Prod) :=
  match p.state with
  | none => .error .attributeError
  | some s => do
    let (s, n) ← update s view
    match s.final with
    | some fv =>
      let v := if fv ≠ [] then view.take (view.length - fv.length) else view
      return (v, { p with state := none, totalMessages := p.totalMessages + n, totalBytes := p.totalBytes + v.length, recovered := some fv })
    | none => return (view, { p with state := some s, totalMessages := p.totalMessages + n, totalBytes := p.totalBytes + view.length })

/-- copyman.py:424-427 `track_state`, without the choice of `nextchunk`. -/
def trackState (p : Prod) (view : Bytes) : Except Err (Bytes × Prod) := processCopyData { p with state := some WS.init } view

end PG.CopyMan
