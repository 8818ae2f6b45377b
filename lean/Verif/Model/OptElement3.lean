import Verif.Model.Element3
import Verif.Model.OptBuffer
/-!
# Model of `postgresql/port/_optimized/element3.c`: rows and batches in C

`protocol/element3.py` 14-15, 29-30, 508-509 takes these functions in place of its own when the extension could be compiled. Pointers have 64 bits, memory is never short,
and the attributes of a row are None or objects of the class `bytes` itself (others raise TypeError, element3.c:45-53).
-/
namespace PG.OptElement3
open PG PG.Element3 PG.OptBuffer

/-- element3.c:107-184 `_unpack_tuple_data`: the attributes that remain, and the data that remains. -/
def unpackAtts : Nat → Bytes → Except CErr (List (Option Bytes))
  | 0, data => if data ≠ [] then .error .value else .ok []
  | natts + 1, data =>
    if data.length < 4 then .error .value
    else if data.take 4 = nullSeq then do
      let l ← unpackAtts natts (data.drop 4)
      return none :: l
    else
      let attsize := beDec (data.take 4)
      if (data.drop 4).length < attsize then .error .value
      else do
        let l ← unpackAtts natts ((data.drop 4).drop attsize)
        return some ((data.drop 4).take attsize) :: l

/-- element3.c:186-216 `parse_tuple_message`. -/
def parseTuple (data : Bytes) : Except CErr (List (Option Bytes)) :=
  if data.length < 2 then .error .value else unpackAtts (beDec (data.take 2)) (data.drop 2)

/-- element3.c:73-98: what is written for an attribute; its size is taken modulo 2^32. -/
def attBytes : Option Bytes → Bytes
  | none => nullSeq
  | some d => beEnc 4 (u32 d.length) ++ d

/-- element3.c:84: the size does not fit an attribute. -/
def tooLarge : Option Bytes → Bool
  | some d => decide (0xFFFFFFFE < d.length)
  | none => false

/-- element3.c:14-102 `_pack_tuple_data`. An attribute that is too large sets the OverflowError (84-89) but the function goes on and returns the bytes; the interpreter raises
SystemError for a result with an exception set. -/
def packTuple (atts : List (Option Bytes)) : Except CErr Bytes :=
  if atts.any tooLarge then .error .system else .ok (atts.flatMap attBytes)

/-- element3.c:218-284 `consume_tuple_messages`, of a tuple of pairs (others raise TypeError, 225-257): the rows up to the first message that is not of type `D`. -/
def consume : List PBuffer.Msg → Except CErr (List (List (Option Bytes)))
  | [] => .ok []
  | x :: r =>
    if x.1 ≠ 68 then .ok []
    else match parseTuple x.2 with
      | .error e => .error e
      | .ok t => match consume r with
        | .error e => .error e
        | .ok l => .ok (t :: l)

/-- How `cat_messages` fails: an exception of a `serialize` method, or one of its own. -/
inductive CatErr where
  | py (e : Err)
  | c (e : CErr)
  deriving DecidableEq, Repr

/-- element3.c:383-399: a line of COPY data. The size is taken modulo 2^32 and so is the step to the next message (`1 + msg_length`); from 2^32 - 5 bytes on the messages are
written over each other. -/
def rawBytes (d : Bytes) : Except CatErr Bytes := if d.length + 5 < 2 ^ 32 then .ok (100 :: (beEnc 4 (d.length + 4) ++ d)) else .error (.c .undefined)

/-- The bytes of the attributes of a row. -/
def rowLength (t : List (Option Bytes)) : Nat := (t.flatMap attBytes).length

/-- element3.c:490-552: a row; as with COPY data, its length and the step are of 32 bits. -/
def rowBytes (t : List (Option Bytes)) : Except CatErr Bytes :=
  if rowLength t + 7 < 2 ^ 32 then .ok (68 :: (beEnc 4 (rowLength t + 6) ++ beEnc 2 t.length ++ t.flatMap attBytes)) else .error (.c .undefined)

/-- element3.c:554-641: a message object: its type, of any size, its length, and what `serialize` gave. `none` is an empty type. -/
def objBytes (typ : Option UInt8) (data : Bytes) : Except CatErr Bytes :=
  if 2 ^ 32 ≤ u32 data.length + 4 then .error (.c .overflow)
  else .ok ((match typ with | some t => [t] | none => []) ++ beEnc 4 (u32 data.length + 4) ++ data)

/-- element3.c:413-459: the first pass over adjacent rows: none of them has more than 0xFFFF attributes. -/
def rowsFit : List Item → Bool
  | .row t :: r => decide (t.length ≤ 0xFFFF) && rowsFit r
  | _ => true

/-- element3.c:320-659 `cat_messages`; the flag: the items before, in the same pass, were rows that have been looked at already. -/
def cat : Bool → List Item → Except CatErr Bytes
  | _, [] => .ok []
  | _, .raw d :: r => do
    let h ← rawBytes d
    let t ← cat false r
    return h ++ t
  | seen, .row t :: r =>
    if !seen && !rowsFit (.row t :: r) then .error (.c .overflow)
    else do
      let h ← rowBytes t
      let t ← cat true r
      return h ++ t
  | _, .msg m :: r =>
    match serialize m with
    | .error e => .error (.py e)
    | .ok data => do
      let h ← objBytes m.kind.typ data
      let t ← cat false r
      return h ++ t
  | _, .void :: r => do
    let h ← objBytes none []
    let t ← cat false r
    return h ++ t

end PG.OptElement3
