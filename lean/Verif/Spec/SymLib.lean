import Verif.Model.SymLib
/-!
# What a symbol library says (documentation/lib.rst, "Writing Libraries", "Symbol Types")

Of the model only the types are used: the library, its symbols, the events and answers of the database.
-/
namespace PG.Spec.SymLib
open PG PG.SymLib

/-- `b` is `a` without the characters of a kind at both its ends. -/
def Trimmed (f : Char → Bool) (a b : Str) : Prop :=
  ∃ l r, a = l ++ b ++ r ∧ (∀ c ∈ l, f c = true) ∧ (∀ c ∈ r, f c = true) ∧ (∀ c, b.head? = some c → f c = false) ∧ (∀ c, b.getLast? = some c → f c = false)

/-- A line that opens a section: `[...]`, with white space around it. -/
def Opens (U : Unicode) (line : Str) : Prop :=
  ∃ l m r, line = l ++ '[' :: m ++ ']' :: r ∧ (∀ c ∈ l, U.isSpace c = true) ∧ (∀ c ∈ r, U.isSpace c = true)

/-- A line that uses the text of another symbol: `*[name]rest`. -/
def Refers (line name rest : Str) : Prop := line = '*' :: '[' :: name ++ ']' :: rest ∧ ']' ∉ name

/-- A section: the line that opens it and the lines up to the next one. -/
structure Section where
  header : Str
  body : List Str

/-- A file: the preface and the sections. -/
structure IsFile (U : Unicode) (lines : List Str) (pre : List Str) (secs : List Section) : Prop where
  eq : lines = pre ++ secs.flatMap fun s => s.header :: s.body
  preface : ∀ l ∈ pre, ¬ Opens U l
  headers : ∀ s ∈ secs, Opens U s.header
  bodies : ∀ s ∈ secs, ∀ l ∈ s.body, ¬ Opens U l

/-- The components of a section marker: what is inside the brackets, separated by colons. -/
def Components (U : Unicode) (header : Str) (fs : List Str) : Prop :=
  ∃ a b, Trimmed U.isSpace header a ∧ Trimmed (fun c => c = '[' ∨ c = ']') a b ∧ fs ≠ [] ∧ (∀ f ∈ fs, ':' ∉ f) ∧ b = PyStr.join [':'] fs

/-- A symbol as it is written: the annotations and the text of the statement. -/
structure Written where
  name : Str
  isref : Bool
  typ : Option Str
  method : Option Str
  text : Str

/-- The latest item for a name; the latest stands first. -/
def Latest {α : Type} (key : α → Str) (l : List α) (name : Str) (x : α) : Prop :=
  ∃ after before, l = after ++ x :: before ∧ key x = name ∧ ∀ y ∈ after, key y ≠ name

/-- The lines of a statement: as they stand, but for references, which stand for the text of the latest symbol of this name before. -/
inductive Reads (prev : List Written) : List Str → List Str → Prop
  | nil : Reads prev [] []
  | plain {line lines ts} : (∀ n r, ¬ Refers line n r) → Reads prev lines ts → Reads prev (line :: lines) (line :: ts)
  | ref {line lines ts name rest w} : Refers line name rest → Latest Written.name prev name w → Reads prev lines ts → Reads prev (line :: lines) ((w.text ++ rest) :: ts)

/-- A line of comment. -/
def Comment (line : Str) : Prop := ∃ s, line = "-- ".toList ++ s

/-- The statement is what follows the comment on top. -/
def Statement (ts : List Str) (text : Str) : Prop :=
  ∃ c r, ts = c ++ r ∧ (∀ x ∈ c, Comment x) ∧ (∀ x, r.head? = some x → ¬ Comment x) ∧ text = r.flatten

/-- A section is read as a symbol, after those in `prev`. -/
structure Means (U : Unicode) (prev : List Written) (s : Section) (w : Written) : Prop where
  marker : ∃ fs, Components U s.header fs ∧ fs.head? = some ((if w.isref then ['&'] else []) ++ w.name) ∧ (w.isref = false → w.name.head? ≠ some '&') ∧ w.typ = fs[1]? ∧ w.method = fs[2]?
  text : ∃ ts t, Reads prev s.body ts ∧ Statement ts t ∧ (w.typ ≠ some "proc".toList → w.text = t) ∧ (w.typ = some "proc".toList → Trimmed U.isSpace t w.text)

/-- All the sections; the latest symbol stands first. -/
inductive Symbols (U : Unicode) : List Section → List Written → Prop
  | nil : Symbols U [] []
  | snoc {secs l s w} : Symbols U secs l → Means U l s w → Symbols U (secs ++ [s]) (w :: l)

/-- The types and methods there are (documentation/lib.rst); an empty component is the default. -/
def types : List String := ["", "static", "preload", "const", "proc", "transient"]
def methods : List String := ["", "all", "first", "rows", "chunks", "declare", "load_chunks", "load_rows", "column"]
def Known (w : Written) : Prop := (∀ t, w.typ = some t → t ∈ types.map String.toList) ∧ (∀ m, w.method = some m → m ∈ methods.map String.toList)

/-- The symbol made from what is written: `preload` is a plain statement, and no, an empty, and the method `all` are the default. -/
structure Made (w : Written) (s : Symbol) : Prop where
  name : s.name = w.name
  source : s.source = w.text
  reference : s.reference = w.isref
  type : s.type = if w.typ = some "preload".toList then none else w.typ
  method : s.method = if w.method = some [] ∨ w.method = some "all".toList then none else w.method

/-- What a library holds. -/
structure Holds (L : Library) (pre : List Str) (l : List Written) : Prop where
  preface : L.preface = pre.flatten
  symbols : ∀ name s, PyDict.get name L.symbolsd = some s ↔ ∃ w, Latest Written.name l name w ∧ Made w s
  preload : ∀ name, name ∈ L.preload ↔ ∃ w ∈ l, w.name = name ∧ w.typ = some "preload".toList

/-! ### Bindings -/

/-- A binding after any accesses to its attributes, whether they succeeded or not. -/
def Reached (D : Db) (L : Library) (b : Binding) : Prop := ∃ t b0 ms, bind D L t = .ok b0 ∧ b = accesses D L b0 ms

/-- What the attribute for a symbol is, if `asked` are the questions put to the database so far (the latest first).

A statement is bound with its text and its method; a procedure with its name; a constant is the value of the statement when it was run. A reference (`&`) is bound as such;
a constant reference is the symbol whose text is made of the rows: columns separated by spaces, rows by newlines. -/
def Expected (D : Db) (s : Symbol) (asked : List Event) (x : Bound) : Prop :=
  if s.reference then
    if s.type = some "const".toList then
      ∃ t a, asked = a ++ .prepare (PyStr.join ['\n'] ((D.rows t s.source).map (PyStr.join [' ']))) :: .run s.source (some "chunks".toList) :: t ∧
        x = .symbol (PyStr.join ['\n'] ((D.rows t s.source).map (PyStr.join [' ']))) s.method false
    else x = .reference s
  else if s.type = some "const".toList then
    ∃ t a v, asked = a ++ .run s.source s.method :: t ∧ D.ask t (.run s.source s.method) = .ok v ∧ x = .value v
  else if s.type = some "proc".toList then x = .symbol s.source none true
  else x = .symbol s.source s.method false

/-- What the database is asked to load a symbol, after `t` (the latest first): each statement is prepared once, a constant is also run once. -/
def questions (D : Db) (s : Symbol) (t : List Event) : List Event :=
  if s.reference then
    if s.type = some "const".toList then
      [.prepare (PyStr.join ['\n'] ((D.rows (.prepare s.source :: t) s.source).map (PyStr.join [' ']))), .run s.source (some "chunks".toList), .prepare s.source]
    else [.prepare s.source]
  else if s.type = some "const".toList then [.run s.source s.method, .prepare s.source]
  else if s.type = some "proc".toList then [.proc s.source]
  else [.prepare s.source]

end PG.Spec.SymLib
