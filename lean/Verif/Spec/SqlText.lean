import Verif.Spec.PgString
/-!
# How PostgreSQL reads SQL text as tokens and statements (src/backend/parser/scan.l), and what FETCH and MOVE ask for

Nothing here refers to the model.  Text is without NUL, and standard_conforming_strings is on.  A text with a construct that is not covered (a dollar
quote, a prefixed constant, a block comment, a number that is not an integer) has no reading here.
-/
namespace PG.Spec.SqlText
open PG PG.Spec.PgString

/-- A token: a key word or an unquoted name (folded to lower case), a quoted identifier, a string constant, an integer, a parameter (`$1`), one other character. -/
inductive Tok where
  | word (s : Str)
  | ident (s : Str)
  | lit (s : Str)
  | num (n : Nat)
  | param (n : Nat)
  | sym (c : Char)
  deriving DecidableEq, Repr

/-- White space. -/
def isSpace (c : Char) : Bool := [' ', '\t', '\n', '\r', '\x0c', '\x0b'].contains c

/-- The characters that are tokens here. -/
def isSym (c : Char) : Bool := [',', ';', '(', ')', '[', ']', '.', ':', '*', '+', '-', '/', '<', '>', '=', '~', '!', '@', '#', '%', '^', '&', '|', '`', '?'].contains c

/-- `Token text t rest`: the text begins with the token. -/
inductive Token : Str → Tok → Str → Prop
  | word (s w rest : Str) : lexWord s = some (w, rest) → rest.head? ≠ some '\'' → rest.head? ≠ some '&' → Token s (.word (foldCase w)) rest
  | ident (s v rest : Str) : QuotedIdent s v rest → Token s (.ident v) rest
  | lit (s v rest : Str) : Literal s v rest → Token s (.lit v) rest
  | num (c : Char) (s : Str) : c.isDigit = true → (∀ d ∈ (s.dropWhile Char.isDigit).head?, identStart d = false ∧ d ≠ '.') →
      Token (c :: s) (.num (Nat.ofDigitChars 10 (c :: s.takeWhile Char.isDigit) 0)) (s.dropWhile Char.isDigit)
  | param (c : Char) (s : Str) : c.isDigit = true → (∀ d ∈ (s.dropWhile Char.isDigit).head?, identStart d = false) →
      Token ('$' :: c :: s) (.param (Nat.ofDigitChars 10 (c :: s.takeWhile Char.isDigit) 0)) (s.dropWhile Char.isDigit)
  | sym (c : Char) (s : Str) : isSym c = true → ¬ (c = '-' ∧ s.head? = some '-') → ¬ (c = '/' ∧ s.head? = some '*') → Token (c :: s) (.sym c) s

/-- `Lex text tokens`: the text reads as the tokens. -/
inductive Lex : Str → List Tok → Prop
  | nil : Lex [] []
  | space (c : Char) (s : Str) (l : List Tok) : isSpace c = true → Lex s l → Lex (c :: s) l
  | comment (t : Str) (n : Char) (s : Str) (l : List Tok) : '\n' ∉ t → '\r' ∉ t → n = '\n' ∨ n = '\r' → Lex s l → Lex ('-' :: '-' :: (t ++ n :: s)) l
  | lastComment (t : Str) : '\n' ∉ t → '\r' ∉ t → Lex ('-' :: '-' :: t) []
  | token (s : Str) (t : Tok) (rest : Str) (l : List Tok) : Token s t rest → Lex rest l → Lex s (t :: l)

/-- Cut at every semicolon. -/
def cutStatements : List Tok → List (List Tok)
  | [] => [[]]
  | t :: l =>
    if t = .sym ';' then [] :: cutStatements l
    else match cutStatements l with
      | [] => [[t]]
      | h :: r => (t :: h) :: r

/-- The statements of a text that is executed: what is between semicolons, if it is not empty. -/
def statements (l : List Tok) : List (List Tok) := (cutStatements l).filter (· ≠ [])

/-- The text reads as exactly these statements, and in no other way. -/
def Reads (text : Str) (stmts : List (List Tok)) : Prop := ∃ l, Lex text l ∧ (∀ l', Lex text l' → l' = l) ∧ statements l = stmts

/-- A key word. -/
def kw (s : String) : Tok := .word s.toList

/-- `NOTIFY "channel"`, or `NOTIFY "channel", 'payload'`. -/
def notification (channel : Str) : Option Str → List Tok
  | none => [kw "notify", .ident channel]
  | some p => [kw "notify", .ident channel, .sym ',', .lit p]

/-- `DECLARE "id" [INSENSITIVE] [SCROLL] CURSOR WITH|WITHOUT HOLD FOR`. -/
def declared (id : Str) (insensitive scroll hold : Bool) : List Tok :=
  [kw "declare", .ident id] ++ (if insensitive then [kw "insensitive"] else []) ++ (if scroll then [kw "scroll"] else []) ++ [kw "cursor"] ++ (if hold then [kw "with", kw "hold"] else [kw "without", kw "hold"]) ++ [kw "for"]

/-- A name, as one may be given to LISTEN: quoted or not. -/
def names (t : Tok) (name : Str) : Prop := t = .ident name ∨ t = .word name

/-! ## FETCH and MOVE -/

/-- What a FETCH or MOVE asks for. -/
inductive Ask where
  | forward (n : Option Int)
  | backward (n : Option Int)
  | absolute (n : Int)
  | relative (n : Int)
  | next
  | last
  deriving DecidableEq, Repr

/-- A signed number, and what follows it. -/
def signed : List Tok → Option (Int × List Tok)
  | .num n :: l => some (n, l)
  | .sym '-' :: .num n :: l => some (-(n : Int), l)
  | .sym '+' :: .num n :: l => some (n, l)
  | _ => none

/-- A signed number or ALL (`none`), and what follows. -/
def quantity : List Tok → Option (Option Int × List Tok)
  | .word a :: l => if a = "all".toList then some (none, l) else none
  | l => (signed l).map fun x => (some x.1, x.2)

/-- What is asked for, and what follows. -/
def ask : List Tok → Option (Ask × List Tok)
  | .word w :: l =>
    if w = "forward".toList then (quantity l).map fun x => (.forward x.1, x.2)
    else if w = "backward".toList then (quantity l).map fun x => (.backward x.1, x.2)
    else if w = "absolute".toList then (signed l).map fun x => (.absolute x.1, x.2)
    else if w = "relative".toList then (signed l).map fun x => (.relative x.1, x.2)
    else if w = "next".toList then some (.next, l)
    else if w = "last".toList then some (.last, l)
    else none
  | _ => none

/-- `MOVE ... IN cursor` or `FETCH ... IN cursor`. -/
def asks (verb : String) : List Tok → Option (Ask × Str)
  | .word v :: l => if v = verb.toList then
      (match ask l with
      | some (a, [.word i, .ident c]) => if i = "in".toList then some (a, c) else none
      | _ => none)
      else none
  | _ => none

/-- Each text reads as one statement, which asks for this of the cursor. -/
inductive Asked (verb : String) (cursor : Str) : List Str → List Ask → Prop
  | nil : Asked verb cursor [] []
  | cons (t : Str) (ts : List Str) (toks : List Tok) (a : Ask) (as : List Ask) : Reads t [toks] → asks verb toks = some (a, cursor) → Asked verb cursor ts as → Asked verb cursor (t :: ts) (a :: as)

end PG.Spec.SqlText
