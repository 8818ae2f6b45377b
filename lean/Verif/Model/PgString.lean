import Verif.Model.PyStr
/-!
# Model of `postgresql/string.py`

`sep` and `quote` arguments are single characters, as everywhere in the code base. `quote_re` is modelled by what Python's backtracking matcher
does with it; see `matchAt`.
-/
namespace PG.PgString
open PG PG.PyStr

/-- string.py:18-22 `escape_literal`. -/
def escapeLiteral (s : Str) : Str := double '\'' s

/-- string.py:24-28 `quote_literal`. -/
def quoteLiteral (s : Str) : Str := ['\''] ++ double '\'' s ++ ['\'']

/-- string.py:30-34 `escape_ident`. -/
def escapeIdent (s : Str) : Str := double '"' s

/-- string.py:36-37 `needs_quoting`. -/
def needsQuoting (U : Unicode) (s : Str) : Bool :=
  match s with
  | [] => true
  | c :: r => !(!U.isDecimal c && (c :: r).all fun x => U.isAlnum (if x = '_' then 'a' else x))

/-- string.py:39-43 `quote_ident`. -/
def quoteIdent (s : Str) : Str := ['"'] ++ double '"' s ++ ['"']

/-- string.py:45-50 `quote_ident_if_needed`. -/
def quoteIdentIfNeeded (U : Unicode) (s : Str) : Str := if needsQuoting U s then quoteIdent s else s

/-! ## quote_re (string.py:52-57) -/

/-- string.py:53: `(?:''|\\.|[^'])*(?:'|$)`: the text matched and the rest. The greedy loop stops at a quote that is not doubled or at the
end of the text, and either satisfies what follows, so the matcher never backtracks. `.` does not match a newline, but a
backslash before a newline and the newline are then matched by `[^']`. -/
def scanE : Str → Str × Str
  | [] => ([], [])
  | '\'' :: '\'' :: s => let r := scanE s; ('\'' :: '\'' :: r.1, r.2)
  | '\'' :: s => (['\''], s)
  | '\\' :: c :: s => let r := scanE s; ('\\' :: c :: r.1, r.2)
  | c :: s => let r := scanE s; (c :: r.1, r.2)

/-- string.py:54-55: `(?:qq|[^q])*(?:q|$)` for the quote `q`. -/
def scanQ (q : Char) : Str → Str × Str
  | [] => ([], [])
  | [c] => ([c], [])
  | c :: d :: s =>
    if c = q then (if d = q then (let r := scanQ q s; (c :: d :: r.1, r.2)) else ([c], d :: s))
    else let r := scanQ q (d :: s); (c :: r.1, r.2)

/-- string.py:56: `\w*\$`: the word and the rest. `\w` does not match `$`. -/
def scanWord (U : Unicode) : Str → Option (Str × Str)
  | [] => none
  | c :: s => if c = '$' then some ([], s) else if U.isWord c then (scanWord U s).map fun r => (c :: r.1, r.2) else none

/-- string.py:56: `\$(?:[^0-9$]\w*)?\$`: the tag and the rest. -/
def scanTag (U : Unicode) : Str → Option (Str × Str)
  | '$' :: c :: s =>
    if c = '$' then some (['$', '$'], s)
    else if '0' ≤ c ∧ c ≤ '9' then none
    else (scanWord U s).map fun r => ('$' :: c :: r.1 ++ ['$'], r.2)
  | _ => none

/-- string.py:56: `.*?(?:\1|$)`. `$` matches at the end of the text and before a newline at the end of the text. -/
def scanBody (tag : Str) : Str → Option (Str × Str)
  | [] => some ([], [])
  | c :: s =>
    if tag.isPrefixOf (c :: s) then some (tag, (c :: s).drop tag.length)
    else if c = '\n' then (if s = [] then some ([], ['\n']) else none)
    else (scanBody tag s).map fun r => (c :: r.1, r.2)

/-- A match: its text, its group and the rest of the text. -/
structure Match where
  text : Str
  dq : Option Str
  rest : Str

/-- string.py:52-57: `quote_re.match` at the start of the text. The alternatives begin with different characters. -/
def matchAt (U : Unicode) : Str → Option Match
  | 'E' :: '\'' :: s => let r := scanE s; some ⟨'E' :: '\'' :: r.1, none, r.2⟩
  | '\'' :: s => let r := scanQ '\'' s; some ⟨'\'' :: r.1, none, r.2⟩
  | '"' :: s => let r := scanQ '"' s; some ⟨'"' :: r.1, none, r.2⟩
  | s =>
    match scanTag U s with
    | none => none
    | some (tag, s') => (scanBody tag s').map fun r => ⟨tag ++ r.1, some tag, r.2⟩

/-- `scan.search()`: the text before the leftmost match, and the match. -/
def search (U : Unicode) : Str → Option (Str × Match)
  | [] => none
  | c :: s =>
    match matchAt U (c :: s) with
    | some m => some ([], m)
    | none => (search U s).map fun r => (c :: r.1, r.2)

/-- What `split` yields: text, or a pair of a quotation mechanism and the text in it. -/
inductive Item where
  | text (s : Str)
  | quoted (q s : Str)
  deriving DecidableEq, Repr

/-- string.py:82-95: the quotation mechanism, what ends it, and the length of that. -/
def mechanism (m : Match) : Str × Str :=
  match m.dq with
  | some dq => (dq, dq)
  | none =>
    match m.text with
    | 'E' :: _ => (['E', '\''], ['\''])
    | c :: _ => ([c], [c])
    | [] => ([], [])

/-- string.py:97-106: whether the quotation is not terminated, in the eyes of `split`. -/
def runaway (m : Match) : Bool :=
  let k := (mechanism m).2.length
  m.text.drop (m.text.length - k) ≠ (mechanism m).2 || m.text.length - k = 0

/-- string.py:76-112: the loop of `split`; every match takes one character or more. -/
def splitLoop (U : Unicode) : Nat → Str → List Item
  | 0, _ => []
  | fuel + 1, s =>
    match search U s with
    | none => [.text s]
    | some (pre, m) =>
      if runaway m then [.text pre, .quoted (mechanism m).1 ((m.text ++ m.rest).drop (mechanism m).1.length)]
      else .text pre :: .quoted (mechanism m).1 ((m.text.take (m.text.length - (mechanism m).2.length)).drop (mechanism m).1.length)
        :: splitLoop U fuel m.rest

/-- string.py:59-112 `split`. -/
def split (U : Unicode) (s : Str) : List Item := splitLoop U (s.length + 1) s

/-- string.py:128-131: the end of a quotation. -/
def endq (q : Str) : Str := if q = ['E', '\''] then ['\''] else q

/-- string.py:114-134 `unsplit`: the loop, with the end of the last quotation. Items that are not alternately text and pairs raise TypeError
(a text of two characters in the place of a pair, which Python takes apart, is not modelled). -/
def unsplitLoop : Str → List Item → Except Err Str
  | _, [] => .ok []
  | e, [.text x] => .ok (e ++ x)
  | e, .text x :: .quoted q t :: l => do
    let r ← unsplitLoop (endq q) l
    return e ++ x ++ q ++ t ++ r
  | _, _ => .error .typeError

/-- string.py:114-134 `unsplit`. -/
def unsplit (l : List Item) : Except Err Str := unsplitLoop [] l

/-! ## Splitting identifiers -/

/-- string.py:170-179: from a quote (or -1) on, the quote that ends the quotation. -/
def closing (q : Char) (text : Str) : Nat → Option Nat → Option Nat
  | 0, _ => none
  | _, none => none
  | fuel + 1, some nq =>
    if slice text nq (nq + 2) ≠ [q, q] then some nq else closing q text fuel (find q text (nq + 2))

/-- string.py:164-190: the next separator outside quotes. -/
def skipQuotes (q sep : Char) (text : Str) : Nat → Nat → Option Nat → Option Nat
  | 0, _, _ => none
  | _, nextsep, none => some nextsep
  | fuel + 1, _, some nq =>
    match closing q text (text.length + 1) (find q text (nq + 1)) with
    | none => none
    | some nq =>
      match find sep text (nq + 1) with
      | none => none
      | some ns => skipQuotes q sep text fuel ns (findIn q text (nq + 1) ns)

/-- string.py:152-196: the loop; `n` is `maxsplit - len(l)`, which is never zero if negative. -/
def splitUsingLoop (q sep : Char) (text : Str) : Nat → Int → Nat → List Str
  | 0, _, _ => []
  | fuel + 1, n, offset =>
    if n = 0 then [text.drop offset]
    else
      match find sep text offset with
      | none => [text.drop offset]
      | some ns =>
        match skipQuotes q sep text (text.length + 1) ns (findIn q text offset ns) with
        | none => [text.drop offset]
        | some ns => slice text offset ns :: splitUsingLoop q sep text fuel (n - 1) (ns + 1)

/-- string.py:136-198 `split_using`. -/
def splitUsing (text : Str) (q sep : Char) (maxsplit : Int) : List Str :=
  if q ∉ text then (if maxsplit < 0 then PyStr.split sep text else splitMax sep maxsplit.toNat text)
  else splitUsingLoop q sep text (text.length + 2) maxsplit 0

/-- string.py:206-223: one identifier. -/
def identOf (U : Unicode) (x : Str) : Except Err Str :=
  let x := strip U x
  if x.head? = some '"' then
    (if x.getLast? ≠ some '"' then .error .valueError else .ok (undouble '"' (x.drop 1).dropLast))
  else if needsQuoting U x then .error .valueError
  else .ok (U.lower x)

/-- string.py:206-224: the loop of `split_ident`. -/
def identsOf (U : Unicode) : List Str → Except Err (List Str)
  | [] => .ok []
  | x :: l => do
    let h ← identOf U x
    let t ← identsOf U l
    return h :: t

/-- string.py:200-224 `split_ident`. -/
def splitIdent (U : Unicode) (text : Str) (sep quote : Char) (maxsplit : Int) : Except Err (List Str) :=
  identsOf U (splitUsing text quote sep maxsplit)

/-- string.py:226-230 `split_qname`. -/
def splitQname (U : Unicode) (text : Str) : Except Err (List Str) := splitIdent U text '.' '"' (-1)

/-- string.py:232-236 `qname`. -/
def qname (l : List Str) : Str := join ['.'] (l.map quoteIdent)

/-- string.py:238-239 `qname_if_needed`. -/
def qnameIfNeeded (U : Unicode) (l : List Str) : Str := join ['.'] (l.map (quoteIdentIfNeeded U))

/-! ## Splitting statements -/

/-- string.py:251-264: what splitting one part gives: what is yielded, and the start of the next statement. -/
def sqlPart (cur : List Item) (sections : List Str) (part : Str) : List (List Item) × List Item :=
  match sections with
  | s0 :: s1 :: r => ((cur ++ [.text s0]) :: (s1 :: r).dropLast.map (fun x => [.text x]), [.text ((s1 :: r).getLast?.getD [])])
  | _ => ([], cur ++ [.text part])

/-- string.py:250-270: the loop of `split_sql`. -/
def splitSqlLoop (sep : Char) : List Item → List Item → Except Err (List (List Item))
  | cur, [] => .ok (if cur = [] then [] else [cur])
  | cur, [.text part] =>
    let r := sqlPart cur (PyStr.split sep part) part
    .ok (r.1 ++ [r.2])
  | cur, .text part :: x :: l => do
    let r := sqlPart cur (PyStr.split sep part) part
    let t ← splitSqlLoop sep (r.2 ++ [x]) l
    return r.1 ++ t
  | _, .quoted .. :: _ => .error .attributeError

/-- string.py:241-271 `split_sql`. -/
def splitSql (U : Unicode) (sql : Str) (sep : Char) : Except Err (List (List Item)) := splitSqlLoop sep [] (split U sql)

/-- string.py:273-281 `split_sql_str`. -/
def splitSqlStr (U : Unicode) (sql : Str) (sep : Char) : Except Err (List Str) := do
  let l ← splitSql U sql sep
  l.mapM unsplit

end PG.PgString
