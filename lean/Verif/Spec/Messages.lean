import Verif.Model.Messages
import Verif.Spec.WireFormat
/-! # What a user should see of a server's message -/
namespace PG.Spec.Messages
open PG PG.Messages

/-- The letters of the fields, from PostgreSQL's documentation (Error and Notice Message Fields). -/
def letter : Field → Char
  | .severity => 'S' | .code => 'C' | .message => 'M' | .detail => 'D' | .hint => 'H' | .context => 'W' | .position => 'P'
  | .internal_position => 'p' | .internal_query => 'q' | .file => 'F' | .line => 'L' | .function => 'R'

/-- What the server sent for a field. -/
def sent (fs : List (Bytes × Option Bytes)) (f : Field) : Option Bytes :=
  (fs.find? fun p => p.1 = [UInt8.ofNat (letter f).toNat]).bind (·.2)

def hexValue (c : Char) : Option Nat := "0123456789abcdef".toList.findIdx? (· = c)

/-- Reading Python's escapes: `\t`, `\n`, `\r`, `\xhh`, and a backslash before another character. -/
def unescape : Str → Option Bytes
  | [] => some []
  | '\\' :: 'x' :: a :: b :: r => match hexValue a, hexValue b with
    | some a, some b => (unescape r).map (UInt8.ofNat (a * 16 + b) :: ·)
    | _, _ => none
  | '\\' :: 't' :: r => (unescape r).map (9 :: ·)
  | '\\' :: 'n' :: r => (unescape r).map (10 :: ·)
  | '\\' :: 'r' :: r => (unescape r).map (13 :: ·)
  | '\\' :: c :: r => (unescape r).map (UInt8.ofNat c.toNat :: ·)
  | c :: r => if c = '\\' then none else (unescape r).map (UInt8.ofNat c.toNat :: ·)

/-- A text shows bytes: it is their decoding, or, if they cannot be decoded, printable ASCII with escapes from which they can be had. -/
def Shows (dec : Bytes → Option Str) (v : Bytes) (s : Str) : Prop :=
  dec v = some s ∨ (dec v = none ∧ unescape s = some v ∧ ∀ c ∈ s, 32 ≤ c.toNat ∧ c.toNat < 127)

/-- The details hold each field sent, but for those left out, and nothing else. -/
def Details (dec : Bytes → Option Str) (fs : List (Bytes × Option Bytes)) (d : List (Field × Str)) : Prop :=
  ∀ f, if f = .code ∨ f = .message then PyDict.get f d = none
    else match sent fs f with
      | none => PyDict.get f d = none
      | some v => ∃ s, PyDict.get f d = some s ∧ Shows dec v s

/-- The bytes of the message's body, as documented. -/
def wire (fs : List (Bytes × Option Bytes)) : Bytes := Format.encs (Format.body (.error fs))

end PG.Spec.Messages
