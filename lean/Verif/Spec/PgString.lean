import Verif.Model.Py
/-!
# How PostgreSQL reads string constants and identifiers (src/backend/parser/scan.l), and splitting outside quotes

Nothing here refers to the model of `postgresql/string.py`.
-/
namespace PG.Spec.PgString
open PG

/-- After an opening quote `q`: the value up to the closing quote and the text after it. A doubled quote stands for the quote. -/
def lexQuoted (q : Char) : Str → Option (Str × Str)
  | [] => none
  | [c] => if c = q then some ([], []) else none
  | c :: d :: s =>
    if c = q then (if d = q then (lexQuoted q s).map fun r => (q :: r.1, r.2) else some ([], d :: s))
    else (lexQuoted q (d :: s)).map fun r => (c :: r.1, r.2)

/-- White space and comments up to the end of the line. -/
inductive Horizontal : Str → Prop
  | nil : Horizontal []
  | space (c : Char) (s : Str) : c ∈ [' ', '\t', '\x0b', '\x0c'] → Horizontal s → Horizontal (c :: s)
  | comment (t : Str) : '\n' ∉ t → '\r' ∉ t → Horizontal ('-' :: '-' :: t)

/-- White space and comments, whole lines. -/
inductive Lines : Str → Prop
  | nil : Lines []
  | space (c : Char) (s : Str) : c ∈ [' ', '\t', '\x0b', '\x0c', '\n', '\r'] → Lines s → Lines (c :: s)
  | comment (t : Str) (n : Char) (s : Str) : '\n' ∉ t → '\r' ∉ t → n ∈ ['\n', '\r'] → Lines s → Lines ('-' :: '-' :: t ++ n :: s)

/-- Two string constants separated by a gap with a newline in it are one. -/
def Gap (w : Str) : Prop := ∃ h n l, Horizontal h ∧ n ∈ ['\n', '\r'] ∧ Lines l ∧ w = h ++ n :: l

/-- The text goes on with the same string constant. -/
def Continues (rest : Str) : Prop := ∃ w more, Gap w ∧ rest = w ++ '\'' :: more

/-- `Literal text value rest`: with standard_conforming_strings, `text` begins with a string constant with that value, and `rest` follows it. -/
inductive Literal : Str → Str → Str → Prop
  | stop (body v rest : Str) : lexQuoted '\'' body = some (v, rest) → ¬ Continues rest → Literal ('\'' :: body) v rest
  | more (body v w m v' rest : Str) : lexQuoted '\'' body = some (v, w ++ '\'' :: m) → Gap w → Literal ('\'' :: m) v' rest →
      Literal ('\'' :: body) (v ++ v') rest

/-- `QuotedIdent text value rest`: `text` begins with a quoted identifier. The empty one is an error. -/
def QuotedIdent (text v rest : Str) : Prop := ∃ body, text = '"' :: body ∧ lexQuoted '"' body = some (v, rest) ∧ v ≠ []

/-- The characters an unquoted identifier begins with. -/
def identStart (c : Char) : Bool := c.isAlpha || c = '_' || 128 ≤ c.toNat
/-- The characters it goes on with. -/
def identCont (c : Char) : Bool := identStart c || c.isDigit || c = '$'

/-- An unquoted identifier or a key word: the text and the rest. -/
def lexWord (s : Str) : Option (Str × Str) :=
  match s with
  | [] => none
  | c :: r => if identStart c then some (c :: r.takeWhile identCont, r.dropWhile identCont) else none

/-- An unquoted identifier is folded to lower case. -/
def foldCase (s : Str) : Str := s.map Char.toLower

/-- With standard_conforming_strings off, and in `E''` constants, a backslash takes the next character with it. Only where the constant ends. -/
def lexEscaped : Str → Option Str
  | [] => none
  | [c] => if c = '\'' then some [] else none
  | c :: d :: s =>
    if c = '\\' then lexEscaped s
    else if c = '\'' then (if d = '\'' then lexEscaped s else some (d :: s))
    else lexEscaped (d :: s)

/-- The text cut at every separator outside quotes, at most `n` times (`none`: any number of times). Every quote character begins or ends
a quotation; `inq` tells whether one is open. -/
def cut (q sep : Char) : Option Nat → Bool → Str → List Str
  | _, _, [] => [[]]
  | n, inq, c :: s =>
    if c = sep ∧ inq = false ∧ n ≠ some 0 then [] :: cut q sep (n.map (· - 1)) false s
    else
      match cut q sep n (if c = q then !inq else inq) s with
      | [] => [[c]]
      | h :: t => (c :: h) :: t

/-- `Written isSpace bare lower text name`: `text` is a way to write the name: quoted, or bare (then folded to lower case), with white space
around it. -/
def Written (isSpace : Char → Bool) (bare : Str → Bool) (lower : Str → Str) (text name : Str) : Prop :=
  ∃ pre body post, text = pre ++ body ++ post ∧ (∀ c ∈ pre, isSpace c = true) ∧ (∀ c ∈ post, isSpace c = true) ∧
    ((∃ b, body = '"' :: b ∧ lexQuoted '"' b = some (name, [])) ∨ (bare body = true ∧ name = lower body))

/-- A bare word: letters and digits of any script and underscores, not beginning with a digit. -/
def bareWord (isAlnum isDecimal : Char → Bool) (s : Str) : Bool := s.any (fun _ => true) && (s.take 1).all (fun c => !isDecimal c) && s.all fun c => isAlnum c || c = '_'

/-! ## Scripts -/

/-- A quotation, with the text between its ends: a string constant, a quoted identifier, an escape string constant or a dollar quote. -/
inductive Quotation where
  | lit (c : Str)
  | ident (c : Str)
  | estr (c : Str)
  | dollar (name c : Str)

/-- What it begins with. -/
def Quotation.opening : Quotation → Str
  | .lit _ => ['\'']
  | .ident _ => ['"']
  | .estr _ => ['E', '\'']
  | .dollar name _ => '$' :: (name ++ ['$'])

/-- What it ends with. -/
def Quotation.closing : Quotation → Str
  | .lit _ => ['\'']
  | .ident _ => ['"']
  | .estr _ => ['\'']
  | .dollar name _ => '$' :: (name ++ ['$'])

/-- What is between. -/
def Quotation.content : Quotation → Str
  | .lit c => c
  | .ident c => c
  | .estr c => c
  | .dollar _ c => c

/-- The name in a dollar quote. -/
def TagName (isWord : Char → Bool) : Str → Prop
  | [] => True
  | c :: r => c ≠ '$' ∧ ¬ ('0' ≤ c ∧ c ≤ '9') ∧ ∀ x ∈ r, isWord x = true

/-- The quotation ends at its end and no sooner. Dollar quotes are on one line. -/
def Quotation.Ok (isWord : Char → Bool) : Quotation → Prop
  | .lit c => ∃ v, lexQuoted '\'' (c ++ ['\'']) = some (v, [])
  | .ident c => ∃ v, lexQuoted '"' (c ++ ['"']) = some (v, [])
  | .estr c => lexEscaped (c ++ ['\'']) = some []
  | .dollar name c => TagName isWord name ∧ '\n' ∉ c ∧ ∀ k < c.length, ¬ ('$' :: (name ++ ['$'])) <+: (c ++ '$' :: (name ++ ['$'])).drop k

/-- Text without quotations; `$` only before the number of a parameter. -/
def Plain : Str → Prop
  | [] => True
  | c :: s => c ≠ '\'' ∧ c ≠ '"' ∧ (c = '$' → ∃ d t, s = d :: t ∧ '0' ≤ d ∧ d ≤ '9') ∧ Plain s

/-- The text of a script: plain text, then quotations each followed by plain text. -/
def script (p : Str) : List (Quotation × Str) → Str
  | [] => p
  | (t, p') :: l => p ++ (t.opening ++ t.content ++ t.closing ++ script p' l)

/-- A script that reads as it is written: no quotation is followed by its own quote character, and a string constant is not preceded by `E`. -/
def Readable (isWord : Char → Bool) (p : Str) : List (Quotation × Str) → Prop
  | [] => Plain p
  | (t, p') :: l => Plain p ∧ t.Ok isWord ∧ (∀ c, t = .lit c → p.getLast? ≠ some 'E') ∧
      (∀ q, t.closing = [q] → (script p' l).head? ≠ some q) ∧ Readable isWord p' l

end PG.Spec.PgString
