import Verif.Model.CopyMan
import Verif.Model.OptBuffer
/-!
# Model of `postgresql/port/_optimized/wirestate.c`: the `WireState` in C

The views are sequences of bytes; failures of the memory allocation are not modelled. The argument `condition` of the constructor is not used by the C code, which always takes the
default of the Python class.
-/
namespace PG.OptWire
open PG PG.OptBuffer PG.CopyMan

/-- RuntimeError, ValueError; `undefined` is not reached (`C99_total`). -/
inductive WErr where | runtime | value | undefined
  deriving DecidableEq, Repr

/-- wirestate.c:7-14 `struct wirestate`: `continuation` is `none` for -1, else the first `continuation` bytes of `size_fragment`. -/
structure CWS where
  continuation : Option Bytes
  remaining : Nat
  final : Option Bytes
  deriving DecidableEq, Repr

/-- wirestate.c:24-43 `ws_new`. -/
def CWS.init : CWS := ⟨none, 0, none⟩

/-- wirestate.c:123-136: inside of a message: what is left of the view, `remaining_bytes` and `nmessages`. -/
def insideC (view : Bytes) (remaining n : Nat) : Bytes × Nat × Nat :=
  if 0 < remaining then
    if view.length < remaining then ([], remaining - view.length, n)
    else (view.drop remaining, 0, n + 1)
  else (view, remaining, n)

/-- wirestate.c:121-174: the loop; the view is that from `position` on. -/
def loopC : Nat → Bytes → Nat → Nat → Except WErr (CWS × Nat)
  | 0, _, _, _ => .error .undefined
  | fuel + 1, view, remaining, n =>
    match insideC view remaining n with
    | ([], remaining, n) => .ok (⟨none, remaining, none⟩, n)
    | (x :: r, remaining, n) =>
      if x ≠ copyType then .ok (⟨none, remaining, some (x :: r)⟩, n)
      else if r.length + 1 < 5 then .ok (⟨some r, remaining, none⟩, n)
      else if u32 (beDec (r.take 4) + 1) < 5 then .error .value
      else loopC fuel (x :: r) (u32 (beDec (r.take 4) + 1)) n

/-- wirestate.c:47-194 `ws_update`: the new state and the number of messages that ended; the state is as it was when it raises. -/
def updateC (s : CWS) (view : Bytes) : Except WErr (CWS × Nat) :=
  if view = [] then .ok (s, 0)
  else if s.final.isSome then .error .runtime
  else match s.continuation with
    | some f =>
      let f' := f ++ view.take (4 - f.length)
      if f'.length = 4 then
        if beDec f' < 4 then .error .value
        else loopC (view.length + 2) view (beDec f' - f.length) (if beDec f' - f.length = 0 then 1 else 0)
      else .ok (⟨some f', s.remaining, none⟩, 0)
    | none => loopC (view.length + 2) view s.remaining 0

/-- wirestate.c:202-230: the attributes `remaining_bytes`, `size_fragment` and `final_view`. -/
def CWS.attributes (s : CWS) : WS := ⟨if s.continuation.isNone then s.remaining else -1, s.continuation.getD [], s.final⟩

/-- A stream handed over in chunks. -/
def trackC : CWS → List Bytes → Except WErr (CWS × Nat)
  | s, [] => .ok (s, 0)
  | s, c :: cs => do
    let (s, n) ← updateC s c
    let (s, m) ← trackC s cs
    return (s, n + m)

end PG.OptWire
