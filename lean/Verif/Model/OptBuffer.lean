import Verif.Model.PBuffer
/-!
# Model of `postgresql/port/_optimized/buffer.c`: the message stream in C

`protocol/buffer.py` 13-16 takes this class instead of `pbuffer.pq_message_stream` when the extension could be compiled. Numbers of type `uint32_t` are taken
modulo 2^32, as C does. Memory is never short. Reading outside of an object has no defined outcome: `undefined`.
-/
namespace PG.OptBuffer
open PG

/-- How a routine written in C fails: the exception, or undefined behaviour. -/
inductive CErr where | value | type | overflow | system | stopIteration | undefined
  deriving DecidableEq, Repr

/-- A number of type `uint32_t`. -/
def u32 (n : Nat) : Nat := n % 2 ^ 32

/-- buffer.c:10-28 `struct p_place`, `struct p_list`: the list from the place on, and the offset in its first item. `struct p_buffer` is the place of what is unread;
its `last` is the end of the list. -/
structure Place where
  list : List Bytes := []
  offset : Nat := 0
  deriving DecidableEq, Repr

/-- buffer.c:114-120: the further items of the list. -/
def atLeastFrom (amount : Nat) : Nat → List Bytes → Bool
  | _, [] => false
  | current, c :: cs => if amount ≤ u32 (current + c.length) then true else atLeastFrom amount (u32 (current + c.length)) cs

/-- buffer.c:97-123 `p_at_least`. -/
def atLeast (p : Place) (amount : Nat) : Bool :=
  match p.list with
  | [] => decide (amount ≤ 0)
  | c :: cs => if amount ≤ u32 (c.length - p.offset) then true else atLeastFrom amount (u32 (c.length - p.offset)) cs

/-- buffer.c:138-157: the loop of `p_seek`; the place and `amount_left`. -/
def seekLoop : Nat → List Bytes → Nat → Place × Nat
  | left, [], _ => (⟨[], 0⟩, left)
  | left, c :: cs, offset =>
    if left = 0 then (⟨c :: cs, offset⟩, 0)
    else if left < c.length - offset then (⟨c :: cs, u32 (offset + left)⟩, 0)
    else seekLoop (left - (c.length - offset)) cs 0

/-- buffer.c:126-160 `p_seek`: the place moved, and how far. -/
def seek (p : Place) (amount : Nat) : Place × Nat :=
  match p.list with
  | [] => (p, 0)
  | c :: _ => if p.offset = c.length then (p, 0) else ((seekLoop amount p.list p.offset).1, amount - (seekLoop amount p.list p.offset).2)

/-- buffer.c:177-193: the loop of `p_memcpy`. -/
def copyLoop : Nat → List Bytes → Nat → Bytes
  | _, [], _ => []
  | left, c :: cs, offset => if left = 0 then [] else (c.drop offset).take left ++ copyLoop (left - min (c.length - offset) left) cs 0

/-- buffer.c:163-196 `p_memcpy`: what is copied; the amount is its length. -/
def memcpy (p : Place) (amount : Nat) : Bytes := copyLoop amount p.list p.offset

/-- buffer.c:244-333 `p_build_tuple`: `none`: it returned NULL without an exception. `signed`: the type `char` is signed, as it is on x86; the type of the message is
the index into a tuple (303), negative then for types from 128 on. -/
def build (signed : Bool) (p : Place) : Except CErr (Option PBuffer.Msg) × Place :=
  let header := memcpy p 5
  if header.length < 5 then (.ok none, p)
  else
    let p := (seek p 5).1
    let n := beDec (slice header 1 5)
    if n < 4 then (.error .value, p)
    else
      let n := n - 4
      if !atLeast p n then (.ok none, p)
      else
        let body := if 0 < n then memcpy p n else []
        if body.length ≠ n then (.ok none, p)
        else
          let p := if 0 < n then (seek p n).1 else p
          if signed && decide (128 ≤ (header.headD 0).toNat) then (.error .undefined, p)
          else (.ok (some (header.headD 0, body)), p)

/-- buffer.c:214-238: the loop of `p_length`; `fuel` bounds it (more than the bytes there are). -/
def lenLoop : Nat → Place → Nat → Except CErr Nat
  | 0, _, count => .ok count
  | fuel + 1, p, count =>
    if p.list = [] then .ok count
    else
      let header := memcpy p 5
      if header.length < 5 then .ok count
      else
        let p := (seek p 5).1
        let n := beDec (slice header 1 5)
        if n < 4 then .error .value
        else if (seek p (n - 4)).2 < n - 4 then .ok count
        else lenLoop fuel (seek p (n - 4)).1 (count + 1)

/-- buffer.c:199-241 `p_length`: `len(stream)`. -/
def len (s : Place) : Except CErr Nat := lenLoop (s.list.flatten.length + 1) s 0

/-- buffer.c:335-380 `p_write`, of a bytes object. -/
def write (s : Place) (d : Bytes) : Place := if 0 < d.length then { s with list := s.list ++ [d] } else s

/-- buffer.c:382-402 `p_next`: `next(stream)`. NULL without an exception is StopIteration. -/
def next (signed : Bool) (s : Place) : Except CErr PBuffer.Msg × Place :=
  match build signed s with
  | (.error e, _) => (.error e, s)
  | (.ok none, _) => (.error .stopIteration, s)
  | (.ok (some m), p) => (.ok m, p)

/-- buffer.c:423-437: the loop of `p_read`. -/
def readLoop (signed : Bool) : Nat → Place → Except CErr (List PBuffer.Msg) × Place
  | 0, p => (.ok [], p)
  | k + 1, p =>
    match build signed p with
    | (.error e, _) => (.error e, p)
    | (.ok none, p) => (.ok [], p)
    | (.ok (some m), p) =>
      match readLoop signed k p with
      | (.error e, p) => (.error e, p)
      | (.ok l, p) => (.ok (m :: l), p)

/-- buffer.c:404-447 `p_read(msg_count)`; the default is -1. `p_length` is -1 when it raised; then `PyTuple_New(-1)` raises SystemError in place of its exception, and so does
any other negative number. -/
def read (signed : Bool) (s : Place) (count : Int) : Except CErr (List PBuffer.Msg) × Place :=
  match len s with
  | .error _ => (.error .system, s)
  | .ok n =>
    let k : Int := if count < n ∧ count ≠ -1 then count else n
    if k < 0 then (.error .system, s)
    else
      match readLoop signed k.toNat s with
      | (.error e, _) => (.error e, s)
      | (.ok l, p) => (.ok l, p)

/-- buffer.c:449-484 `p_has_message`. -/
def hasMessage (s : Place) : Except CErr Bool :=
  let header := memcpy s 5
  if header.length < 5 then .ok false
  else
    let p := (seek s 5).1
    let n := beDec (slice header 1 5)
    if n < 4 then .error .value else .ok (atLeast p (n - 4))

/-- buffer.c:486-513 `p_next_message`. -/
def nextMessage (signed : Bool) (s : Place) : Except CErr (Option PBuffer.Msg) × Place :=
  match build signed s with
  | (.error e, _) => (.error e, s)
  | (.ok none, _) => (.ok none, s)
  | (.ok (some m), p) => (.ok (some m), p)

/-- buffer.c:515-562 `p_getvalue`: the rest of the first item, and the others. -/
def getvalue (s : Place) : Bytes :=
  match s.list with
  | [] => []
  | c :: cs => c.drop s.offset ++ cs.flatten

/-- buffer.c:45-69 `p_truncate`, `pb_truncate`. -/
def truncate (_ : Place) : Place := {}

end PG.OptBuffer
