import Verif.Spec.Elements
/-!
# Specification: the documented formats of the messages

"Message Formats" of the PostgreSQL documentation, written as lists of the documentation's fields.  Only the data type `Elem`
is taken from the model.
-/
namespace PG.Spec.Format
open PG PG.Element3 PG.Spec

/-- The documentation's data types: `Int8`, `Int16`, `Int32` in network byte order, `String` (terminated by a zero byte),
`Byten`. -/
inductive Field where
  | int8 (n : Int)
  | int16 (n : Int)
  | int32 (n : Int)
  | string (s : Bytes)
  | bytes (b : Bytes)

/-- Network byte order: byte `i` of `k` is the digit of weight `256 ^ (k - 1 - i)`, two's complement for negative numbers. -/
def digits (k : Nat) (n : Int) : Bytes := (List.range k).map fun i => UInt8.ofNat (n / 256 ^ (k - 1 - i) % 256).toNat

/-- The bytes of a field. -/
def enc : Field → Bytes
  | .int8 n => digits 1 n
  | .int16 n => digits 2 n
  | .int32 n => digits 4 n
  | .string s => s ++ [0]
  | .bytes b => b

/-- The bytes of the fields. -/
def encs (fs : List Field) : Bytes := fs.flatMap enc

/-- A value: `Int32` length (-1: NULL) and the bytes. -/
def value : Option Bytes → List Field
  | none => [.int32 (-1)]
  | some d => [.int32 d.length, .bytes d]

/-- One column of a row description. -/
def column (c : ColDesc) : List Field :=
  [.string c.name, .int32 c.relId, .int16 c.colNum, .int32 c.typId, .int16 c.typLen, .int32 c.typMod, .int16 c.fmt]

/-- One parameter of the startup message. -/
def parameter (p : Bytes × Option Bytes) : List Field :=
  match p.2 with
  | some v => [.string p.1, .string v]
  | none => []

/-- One field of a notice or an error: the code and the text. -/
def noticeItem (p : Bytes × Option Bytes) : List Field :=
  match p.2 with
  | some v => [.bytes p.1, .string v]
  | none => []

/-- The type byte ('\x00' stands for: no type byte, the message begins with its length). -/
def letter : Elem → Char
  | .notify .. => 'A' | .showOption .. => 'S' | .complete .. => 'C' | .ready .. => 'Z' | .notice .. => 'N' | .error .. => 'E'
  | .functionResult .. => 'V' | .attributeTypes .. => 't' | .tupleDescriptor .. => 'T' | .tuple .. => 'D'
  | .killInformation .. => 'K' | .authentication .. => 'R' | .copyToBegin .. => 'H' | .copyFromBegin .. => 'G'
  | .copyData .. => 'd' | .parse .. => 'P' | .bind .. => 'B' | .execute .. => 'E' | .function .. => 'F'
  | .cancelRequest .. => '\x00' | .negotiateSSL => '\x00' | .startup .. => '\x00'
  | .empty k => match k with
    | .null => 'I' | .noData => 'n' | .parseComplete => '1' | .bindComplete => '2' | .closeComplete => '3' | .suspension => 's'
    | .disconnect => 'X' | .flush => 'H' | .synchronize => 'S' | .copyDone => 'c'
  | .str k _ => match k with
    | .password => 'p' | .query => 'Q' | .copyFail => 'f' | .describeStatement => 'D' | .describePortal => 'D'
    | .closeStatement => 'C' | .closePortal => 'C'

/-- The fields after the length. -/
def body : Elem → List Field
  | .notify pid channel payload => [.int32 pid, .string channel, .string payload]
  | .showOption name value => [.string name, .string value]
  | .complete tag => [.string tag]
  | .empty _ => []
  | .ready status => [.bytes status]
  | .notice fs => fs.flatMap noticeItem ++ [.int8 0]
  | .error fs => fs.flatMap noticeItem ++ [.int8 0]
  | .functionResult r => value r
  | .attributeTypes oids => .int16 oids.length :: oids.map .int32
  | .tupleDescriptor cs => .int16 cs.length :: cs.flatMap column
  | .tuple atts => .int16 atts.length :: atts.flatMap value
  | .killInformation pid key => [.int32 pid, .int32 key]
  | .cancelRequest pid key => [.int32 80877102, .int32 pid, .int32 key]
  | .negotiateSSL => [.int32 80877103]
  | .startup fs => .int32 196608 :: fs.flatMap parameter ++ [.int8 0]
  | .authentication request data => [.int32 request, .bytes data]
  | .str k s => match k with
    | .password => [.string s] | .query => [.string s] | .copyFail => [.string s]
    | .describeStatement => [.int8 'S'.toNat, .string s] | .describePortal => [.int8 'P'.toNat, .string s]
    | .closeStatement => [.int8 'S'.toNat, .string s] | .closePortal => [.int8 'P'.toNat, .string s]
  | .parse name query oids => .string name :: .string query :: .int16 oids.length :: oids.map .int32
  | .bind portal statement formats args results =>
    .string portal :: .string statement :: .int16 formats.length :: formats.map .bytes ++
      .int16 args.length :: args.flatMap value ++ .int16 results.length :: results.map .bytes
  | .execute portal max => [.string portal, .int32 max]
  | .function oid formats args result =>
    .int32 oid :: .int16 formats.length :: formats.map .bytes ++ .int16 args.length :: args.flatMap value ++ [.bytes result]
  | .copyToBegin format cols => .int8 format :: .int16 cols.length :: cols.map .int16
  | .copyFromBegin format cols => .int8 format :: .int16 cols.length :: cols.map .int16
  | .copyData d => [.bytes d]

/-- The whole message: the type byte if there is one, the length including itself, the fields. -/
def message (m : Elem) : Bytes :=
  (if letter m = '\x00' then [] else [UInt8.ofNat (letter m).toNat]) ++ digits 4 ((encs (body m)).length + 4) ++ encs (body m)

end PG.Spec.Format
