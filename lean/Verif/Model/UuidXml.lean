import Verif.Model.PyInt
/-!
# Model of `postgresql/types/io/stdlib_uuid.py`, `stdlib_xml_etree.py` and the formats of `lib.py` for paths and vectors

`uuid.UUID(text)` is Python's; its steps are modelled for ASCII text. Of `xml.etree.ElementTree` only the interface is modelled: what the parser finds and how elements are written are parameters (`Lib`).
-/
namespace PG.UuidXml
open PG

/-! ## uuid -/

/-- `s.replace(pat, '')`; `skip`: characters of an occurrence still to be left out. -/
def removeAll (pat : Str) : Nat → Str → Str
  | _, [] => []
  | k + 1, _ :: s => removeAll pat k s
  | 0, c :: s => if pat.isPrefixOf (c :: s) then removeAll pat (pat.length - 1) s else c :: removeAll pat 0 s

/-- A brace. -/
def brace (c : Char) : Bool := c = '{' || c = '}'

/-- `s.strip('{}')`. -/
def stripBraces (s : Str) : Str := ((s.dropWhile brace).reverse.dropWhile brace).reverse

/-- `uuid.UUID(hex)`: its number. -/
def uuidOf (s : Str) : Except Err Nat :=
  let hex := (stripBraces (removeAll "uuid:".toList 0 (removeAll "urn:".toList 0 s))).filter (· ≠ '-')
  if hex.length ≠ 32 then .error .valueError
  else
    match PyInt.pyInt 16 hex with
    | .error e => .error e
    | .ok n => if 0 ≤ n ∧ n < 2 ^ 128 then .ok n.toNat else .error .valueError

/-- What is given for a `uuid`: a `uuid.UUID` (its number), a text, another object. -/
inductive UVal where
  | uuid (n : Nat)
  | text (s : Str)
  | other
  deriving DecidableEq, Repr

/-- stdlib_uuid.py:4-7 `uuid_pack`. -/
def uuidPack : UVal → Except Err Bytes
  | .uuid n => .ok (beEnc 16 n)
  | .text s =>
    match uuidOf s with
    | .error e => .error e
    | .ok n => .ok (beEnc 16 n)
  | .other => .error .attributeError

/-- stdlib_uuid.py:9-10 `uuid_unpack`: the number of the UUID. -/
def uuidUnpack (x : Bytes) : Except Err Nat := if x.length ≠ 16 then .error .valueError else .ok (beDec x)

/-! ## Paths and vectors -/

/-- The doubles of a path, as their eight bytes each; lib.py:43-51 `path_pack`. -/
def pathPack (data : List Bytes) : Except Err Bytes := do
  let n ← packS 4 data.length
  return n ++ data.flatten

/-- Cut into pieces of eight. -/
def eights : Nat → Bytes → List Bytes
  | 0, _ => []
  | n + 1, b => b.take 8 :: eights n (b.drop 8)

/-- lib.py:53-61 `path_unpack`: `unpack("!4x%dd" % n, data)`. A negative number gives an invalid format. -/
def pathUnpack (data : Bytes) : Except Err (List Bytes) := do
  let n ← unpackS 4 (data.take 4)
  if n < 0 then .error .structError
  else if data.length ≠ 4 + 8 * n.toNat then .error .structError
  else return eights n.toNat (data.drop 4)

/-- lib.py:220-226 `oidvector_pack`: `.ljust(128, '\x00')` of bytes with a `str`. -/
def oidvectorPack (seq : List Int) : Except Err Bytes := do
  let _ ← seq.mapM (packU 4)
  .error .typeError

/-- lib.py:236-242 `int2vector_pack`. -/
def int2vectorPack (seq : List Int) : Except Err Bytes := do
  let _ ← seq.mapM (packS 2)
  .error .typeError

/-! ## xml -/

/-- The library: `XML(s)` gives an element (`none`: it raises); the root of `<x>` ... `</x>`: the text at the beginning and the elements, each with the text after it; the text of an element without what
comes after it, and of text. -/
structure Lib (ν : Type) where
  doc : Str → Option ν
  content : Str → Option (Str × List (ν × Str))
  ser : ν → Str
  escape : Str → Str

/-- What unpacking gives: an element (nothing after it), or a tuple of elements with the text after each. -/
inductive Out (ν : Type) where
  | element (e : ν)
  | tuple (l : List (ν × Str))
  deriving DecidableEq

/-- stdlib_xml_etree.py:15-20 `xml_unpack`. -/
def xmlUnpack {ν : Type} (L : Lib ν) (s : Str) : Option (Out ν) :=
  match L.doc s with
  | some e => some (.element e)
  | none =>
    match L.content s with
    | some (_, l) => some (.tuple l)
    | none => none

/-- An item of a tuple: a `str`, or an element with the text after it. -/
inductive Item (ν : Type) where
  | str (s : Str)
  | elem (e : ν) (tail : Str)

/-- `tostr(x)`: elements are written with the text after them. -/
def Item.text {ν : Type} (L : Lib ν) : Item ν → Str
  | .str s => s
  | .elem e t => L.ser e ++ L.escape t

/-- What is given for an `xml`. -/
inductive Given (ν : Type) where
  | bytes (b : Bytes)
  | str (s : Str)
  | tuple (l : List (Item ν))
  | elem (e : ν) (tail : Str)

/-- The codecs of the connection: `typio.encoding`, `typio.encode` (`none`: it raises), and UTF-8. -/
structure Codec where
  encoding : Str
  encode : Str → Option Bytes
  utf8 : Str → Bytes

/-- stdlib_xml_etree.py:70-73: a text that is there as UTF-8. -/
def finish (C : Codec) (t : Str) : Option Bytes :=
  if C.encoding = "utf8".toList ∨ C.encoding = "utf-8".toList then some (C.utf8 t) else C.encode t

/-- stdlib_xml_etree.py:45-73 `xml_pack` (the branch for Python from 3.2). -/
def xmlPack {ν : Type} (L : Lib ν) (C : Codec) : Given ν → Option Bytes
  | .bytes b => some b
  | .str s => C.encode s
  | .tuple l => finish C (l.flatMap (Item.text L))
  | .elem e t => finish C (L.ser e ++ L.escape t)

end PG.UuidXml
