import Verif.Spec.PgString
/-!
# Queries with parameter markers

The text of a query outside quotations is a sequence of characters, `%%`, markers `%s` and markers `%(name)s`. Nothing here refers to the model of
`postgresql/driver/dbapi20.py`.
-/
namespace PG.Spec.DbApi
open PG PG.Spec.PgString

inductive Tok where
  | chr (c : Char)
  | percent
  | marker
  | named (k : Str)
  deriving DecidableEq

/-- As the user writes it. -/
def Tok.source : Tok → Str
  | .chr c => [c]
  | .percent => ['%', '%']
  | .marker => ['%', 's']
  | .named k => '%' :: '(' :: (k ++ [')', 's'])

/-- A `%` is not a character by itself, and names have no parentheses. -/
def Tok.Ok : Tok → Prop
  | .chr c => c ≠ '%'
  | .named k => '(' ∉ k ∧ ')' ∉ k
  | _ => True

/-- The text the user writes. -/
def source (ts : List Tok) : Str := ts.flatMap Tok.source

/-- Whether it is a marker. -/
def Tok.isMarker : Tok → Bool
  | .marker => true
  | .named _ => true
  | _ => false

/-- The markers of a text. -/
def markers (ts : List Tok) : List Tok := ts.filter Tok.isMarker

/-- The text with the markers replaced by references to these parameters in turn, and `%%` by `%`. -/
def refer : List Tok → List Nat → Str
  | [], _ => []
  | .chr c :: ts, ns => c :: refer ts ns
  | .percent :: ts, ns => '%' :: refer ts ns
  | _ :: ts, n :: ns => '$' :: (Nat.toDigits 10 n ++ refer ts ns)
  | _ :: ts, [] => refer ts []

/-- What becomes of a text outside quotations: without a marker in it, it stays as it is. -/
def converted (ts : List Tok) (ns : List Nat) : Str := if markers ts = [] then source ts else refer ts ns

/-- A query: text, then quotations each followed by text. -/
structure Query where
  first : List Tok
  rest : List (Quotation × List Tok)

/-- The query as the user writes it. -/
def Query.source (q : Query) : Str := script (DbApi.source q.first) (q.rest.map fun x => (x.1, DbApi.source x.2))

/-- The texts outside quotations. -/
def Query.texts (q : Query) : List (List Tok) := q.first :: q.rest.map Prod.snd

/-- All markers of the query. -/
def Query.markers (q : Query) : List Tok := (q.texts.map DbApi.markers).flatten

/-- It reads as it is written. -/
def Query.Ok (isWord : Char → Bool) (q : Query) : Prop :=
  (∀ ts ∈ q.texts, ∀ t ∈ ts, t.Ok) ∧ Readable isWord (DbApi.source q.first) (q.rest.map fun x => (x.1, DbApi.source x.2))

/-- The quotations and texts after the first, with references to these parameters. -/
def convertedRest : List (Quotation × List Tok) → List Nat → List (Quotation × Str)
  | [], _ => []
  | (t, ts) :: l, ns => (t, DbApi.converted ts ns) :: convertedRest l (ns.drop (DbApi.markers ts).length)

/-- The query with references to these parameters in the place of its markers. -/
def Query.converted (q : Query) (ns : List Nat) : Str :=
  script (DbApi.converted q.first ns) (convertedRest q.rest (ns.drop (DbApi.markers q.first).length))

/-- The names in the markers. -/
def names (ts : List Tok) : List Str := ts.filterMap fun | .named k => some k | _ => none

/-! ## How the server reads references to parameters outside quotations (scan.l: `param`) -/

/-- The number a sequence of digits stands for, if any. -/
def numberOf (ds : Str) : List Nat := if ds = [] then [] else [Nat.ofDigitChars 10 ds 0]

/-- The references in a text without quotations. `word`: the last character belongs to an identifier (which may contain `$`); `acc`: the digits after a `$`. -/
def references : Bool → Option Str → Str → List Nat
  | _, none, [] => []
  | _, some ds, [] => numberOf ds
  | word, none, c :: s =>
    if word = false ∧ c = '$' then references false (some []) s else references (identStart c || (word && identCont c)) none s
  | word, some ds, c :: s =>
    if c.isDigit then references word (some (ds ++ [c])) s
    else numberOf ds ++ (if c = '$' then references false (some []) s else references (identStart c) none s)

/-- Markers stand alone: not after a character of an identifier nor before a digit; and the text has no references of its own. -/
def Alone : List Tok → Prop
  | [] => True
  | .chr c :: ts => c ≠ '$' ∧ (identCont c = true → ∀ t ∈ ts.head?, t.isMarker = false) ∧ Alone ts
  | .percent :: ts => Alone ts
  | _ :: ts => (∀ c, ts.head? = some (.chr c) → c.isDigit = false) ∧ Alone ts

end PG.Spec.DbApi
