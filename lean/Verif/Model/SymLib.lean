import Verif.Model.PyStr
import Verif.Model.PyDict
/-!
# Model of symbol libraries (`lib/__init__.py`)

`ILF.from_lines`, `SymbolCollection`, `Symbol`, `Binding`, `BoundSymbol`, `BoundReference`, `Category`, and the search for library files. Libraries made from
Python modules, and callable ("subjective") symbols, are not modelled: every symbol comes from an ILF file. A binding's namespace is taken to hold symbols
only: names of Python's own attributes (`__class__`, ...) are not symbols.
-/
namespace PG.SymLib
open PG PG.PyStr

/-! ### Reading a file -/

/-- A line in a block: a text, or a reference with the rest of its line (lib/__init__.py:224-231). -/
inductive BLine where
  | text (s : Str)
  | ref (name rest : Str)
  deriving DecidableEq, Repr

/-- `l = line.strip(); l.startswith('[') and l.endswith(']')` (lib/__init__.py:219-220). -/
def isHeader (U : Unicode) (line : Str) : Bool := (strip U line).head? = some '[' ∧ (strip U line).getLast? = some ']'

/-- The two other branches (lib/__init__.py:224-231). -/
def bline (line : Str) : BLine :=
  match line with
  | '*' :: '[' :: s => if ']' ∈ s then .ref (s.takeWhile (· ≠ ']')) ((s.dropWhile (· ≠ ']')).drop 1) else .text line
  | _ => .text line

/-- The loop over the lines (lib/__init__.py:214-232): `curid`, `curblock`, and the blocks before them. -/
def blocks (U : Unicode) : Option Str → List BLine → List Str → List (Option Str × List BLine)
  | curid, curblock, [] => [(curid, curblock)]
  | curid, curblock, line :: lines =>
    if isHeader U line then (curid, curblock) :: blocks U (some line) [] lines
    else blocks U curid (curblock ++ [bline line]) lines

/-- `''.join(block)` for the preface, where a reference is a tuple (lib/__init__.py:233). -/
def prefaceText : List BLine → Except Err Str
  | [] => .ok []
  | .text s :: l => (prefaceText l).map (s ++ ·)
  | .ref _ _ :: _ => .error .typeError

/-- `s.strip('[]')`. -/
def stripBrackets (s : Str) : Str :=
  let f := fun c : Char => decide (c = '[' ∨ c = ']')
  ((s.dropWhile f).reverse.dropWhile f).reverse

/-- An entry of `syms` (lib/__init__.py:270). -/
structure Entry where
  name : Str
  isref : Bool
  typ : Option Str
  exe : Option Str
  doc : Str
  query : Str
  deriving DecidableEq, Repr

/-- `name, styp, exe, *_` (lib/__init__.py:239-241). -/
def describe (U : Unicode) (symdesc : Str) : Str × Option Str × Option Str :=
  match split ':' (stripBrackets (strip U symdesc)) with
  | [] => ([], none, none)
  | [n] => (n, none, none)
  | [n, t] => (n, some t, none)
  | n :: t :: m :: _ => (n, some t, some m)

/-- A line with its reference resolved (lib/__init__.py:245-250); `syms` stands with the latest first. `None[1]` raises. -/
def resolve (syms : List Entry) : BLine → Except Err Str
  | .text s => .ok s
  | .ref name rest => match syms.find? (fun y => y.name = name) with
    | some y => .ok (y.query ++ rest)
    | none => .error .typeError

/-- `x.startswith('-- ')`. -/
def isComment (x : Str) : Bool := x.take 3 = ['-', '-', ' ']

/-- A section (lib/__init__.py:235-270). -/
def section_ (U : Unicode) (syms : List Entry) (symdesc : Str) (block : List BLine) : Except Err Entry := do
  let block ← block.mapM (resolve syms)
  let d := describe U symdesc
  let doc := ((block.takeWhile isComment).map (List.drop 3)).flatten
  let query := (block.dropWhile isComment).flatten
  let query := if d.2.1 = some "proc".toList then strip U query else query
  return match d.1 with
    | '&' :: n => ⟨n, true, d.2.1, d.2.2, doc, query⟩
    | n => ⟨n, false, d.2.1, d.2.2, doc, query⟩

/-- The loop over the blocks (lib/__init__.py:234-270); the result has the latest first. A block without a header is only the first, which was taken away. -/
def sections (U : Unicode) : List Entry → List (Option Str × List BLine) → Except Err (List Entry)
  | syms, [] => .ok syms
  | syms, (h, b) :: l => do
    let e ← section_ U syms (h.getD []) b
    sections U (e :: syms) l

/-- A `Symbol` (lib/__init__.py:46-95). -/
structure Symbol where
  name : Str
  source : Str
  method : Option Str
  type : Option Str
  reference : Bool
  deriving DecidableEq, Repr

/-- lib/__init__.py:62-71. -/
def executionMethods : List Str :=
  ["first".toList, "rows".toList, "chunks".toList, "declare".toList, "load_chunks".toList, "load_rows".toList, "column".toList]

/-- lib/__init__.py:148-154. -/
def symtypes : List Str := ["static".toList, "preload".toList, "const".toList, "proc".toList, "transient".toList]

/-- The choice of the method (lib/__init__.py:87-91). -/
def methodOf : Option Str → Except Err (Option Str)
  | none => .ok none
  | some m =>
    if m = [] ∨ m = "all".toList then .ok none
    else if m ∉ executionMethods then .error .valueError
    else .ok (some m)

/-- A library: the symbols by name, the names to be loaded when bound, the preface. -/
structure Library where
  symbolsd : List (Str × Symbol) := []
  preload : List Str := []
  preface : Str := []
  deriving DecidableEq, Repr

/-- The body of the loop in `SymbolCollection.__init__` (lib/__init__.py:166-182). -/
def addSymbol (L : Library) (e : Entry) : Except Err Library :=
  match e.typ with
  | some t =>
    if t ≠ [] ∧ t ∉ symtypes then .error .valueError
    else if t = "preload".toList then do
      let m ← methodOf e.exe
      return { L with preload := if e.name ∈ L.preload then L.preload else L.preload ++ [e.name], symbolsd := PyDict.set e.name ⟨e.name, e.query, m, none, e.isref⟩ L.symbolsd }
    else do
      let m ← methodOf e.exe
      return { L with symbolsd := PyDict.set e.name ⟨e.name, e.query, m, some t, e.isref⟩ L.symbolsd }
  | none => do
    let m ← methodOf e.exe
    return { L with symbolsd := PyDict.set e.name ⟨e.name, e.query, m, none, e.isref⟩ L.symbolsd }

/-- `SymbolCollection.__init__` (lib/__init__.py:156-182). -/
def collect : Library → List Entry → Except Err Library
  | L, [] => .ok L
  | L, e :: l => do
    let L ← addSymbol L e
    collect L l

/-- `ILF.from_lines(lines)` (lib/__init__.py:207-271). -/
def fromLines (U : Unicode) (lines : List Str) : Except Err Library :=
  match blocks U none [] lines with
  | [] => .error .runtimeError -- there is always a first block
  | (_, b) :: l => do
    let preface ← prefaceText b
    let syms ← sections U [] l
    collect { preface := preface } syms.reverse

/-- `get_symbol(name)` (lib/__init__.py:200-201). -/
def getSymbol (L : Library) (name : Str) : Option Symbol := PyDict.get name L.symbolsd

/-! ### Finding a file -/

/-- The name of a library from the file's name (lib/__init__.py:281-283). -/
def libName (bn : Str) : Option Str :=
  if bn.take 3 = "lib".toList ∧ bn.drop (bn.length - 4) = ".sql".toList ∧ 4 ≤ bn.length then
    (match (bn.take (bn.length - 4)).drop 3 with
    | [] => none
    | n => some n)
  else none

/-- `os.path.join(p, lib)` for a relative `lib`. -/
def pathJoin (p lib : Str) : Str := if p = [] ∨ p.getLast? = some '/' then p ++ lib else p ++ ['/'] ++ lib

/-- `find_libsql` and the loop in `load` (lib/__init__.py:435-446, 466-472): the first file that exists. -/
def findLib (exists_ : Str → Bool) (libpath : List Str) (name : Str) : Except Err Str :=
  match (libpath.map fun p => pathJoin p ("lib".toList ++ name ++ ".sql".toList)).find? exists_ with
  | some x => .ok x
  | none => .error .runtimeError -- LoadError

/-! ### Binding -/

/-- What a binding asks the database for: to prepare a statement, to look up a procedure, to run the prepared one with a method. -/
inductive Event where
  | prepare (source : Str)
  | proc (source : Str)
  | run (source : Str) (method : Option Str)
  deriving DecidableEq, Repr

/-- A value; `none` is `None`. -/
inductive Val where
  | none
  | obj (n : Nat)
  deriving DecidableEq, Repr

/-- The database: how it answers depends on what was asked before. `run` gives a value (an iterator is read to its end, lib/__init__.py:387-389), and a statement
that is run as a reference gives texts, row by row. -/
structure Db where
  ask : List Event → Event → Except Err Val
  rows : List Event → Str → List (List Str)

/-- What an attribute of a binding is: a `BoundSymbol`, with the source and the method it is called with; a `BoundReference`; the value of a constant. -/
inductive Bound where
  | symbol (source : Str) (method : Option Str) (proc : Bool)
  | reference (s : Symbol)
  | value (v : Val)
  deriving DecidableEq, Repr

/-- A binding: the cache, and what was asked (the latest first). -/
structure Binding where
  cache : List (Str × Bound) := []
  asked : List Event := []
  deriving DecidableEq, Repr

/-- `BoundSymbol(symbol, database)` (lib/__init__.py:290-302). -/
def bindSymbol (D : Db) (s : Symbol) (t : List Event) : Except Err Bound × List Event :=
  if s.type = some "proc".toList then
    (match D.ask t (.proc s.source) with
    | .error e => (.error e, .proc s.source :: t)
    | .ok _ => (.ok (.symbol s.source none true), .proc s.source :: t))
  else
    (match D.ask t (.prepare s.source) with
    | .error e => (.error e, .prepare s.source :: t)
    | .ok _ => (.ok (.symbol s.source s.method false), .prepare s.source :: t))

/-- `BoundReference(symbol, database)` (lib/__init__.py:315-318): always a prepared statement. -/
def bindReference (D : Db) (s : Symbol) (t : List Event) : Except Err Bound × List Event :=
  match D.ask t (.prepare s.source) with
  | .error e => (.error e, .prepare s.source :: t)
  | .ok _ => (.ok (.reference s), .prepare s.source :: t)

/-- Columns are joined with a space, rows with a newline (lib/__init__.py:321-323). -/
def referred (rows : List (List Str)) : Str := join ['\n'] (rows.map (join [' ']))

/-- `BoundReference.__call__` (lib/__init__.py:320-334). -/
def callReference (D : Db) (s : Symbol) (t : List Event) : Except Err Bound × List Event :=
  match D.ask t (.run s.source (some "chunks".toList)) with
  | .error e => (.error e, .run s.source (some "chunks".toList) :: t)
  | .ok _ => bindSymbol D { s with source := referred (D.rows t s.source), reference := false } (.run s.source (some "chunks".toList) :: t)

/-- `Binding.__getattr__` for the value `None` in the cache is the same as for no value (lib/__init__.py:365-366). -/
def cached (b : Binding) (name : Str) : Option Bound :=
  match PyDict.get name b.cache with
  | some (.value .none) => none
  | r => r

/-- `Binding.__getattr__(name)` (lib/__init__.py:353-396). -/
def getattr (D : Db) (L : Library) (b : Binding) (name : Str) : Except Err Bound × Binding :=
  match cached b name with
  | some x => (.ok x, b)
  | none =>
    match getSymbol L name with
    | none => (.error .attributeError, b)
    | some s =>
      if s.reference then
        (match bindReference D s b.asked with
        | (.error e, t) => (.error e, { b with asked := t })
        | (.ok x, t) =>
          if s.type = some "const".toList then
            (match callReference D s t with
            | (.error e, t) => (.error e, { b with asked := t })
            | (.ok x, t) => (.ok x, { cache := PyDict.set name x b.cache, asked := t }))
          else if s.type = some "transient".toList then (.ok x, { b with asked := t })
          else (.ok x, { cache := PyDict.set name x b.cache, asked := t }))
      else if s.type = some "const".toList then
        (match bindSymbol D s b.asked with
        | (.error e, t) => (.error e, { b with asked := t })
        | (.ok _, t) =>
          match D.ask t (.run s.source s.method) with
          | .error e => (.error e, { b with asked := .run s.source s.method :: t })
          | .ok v => (.ok (.value v), { cache := PyDict.set name (.value v) b.cache, asked := .run s.source s.method :: t }))
      else
        (match bindSymbol D s b.asked with
        | (.error e, t) => (.error e, { b with asked := t })
        | (.ok x, t) =>
          if s.type = some "transient".toList then (.ok x, { b with asked := t })
          else (.ok x, { cache := PyDict.set name x b.cache, asked := t }))

/-- The loop in `Binding.__init__` (lib/__init__.py:340-348); the order of the set is `l`'s. -/
def loadAll (D : Db) (L : Library) : Binding → List Str → Except Err Binding
  | b, [] => .ok b
  | b, x :: l => match getattr D L b x with
    | (.error e, _) => .error e
    | (.ok _, b) => loadAll D L b l

/-- `Binding(database, library)`; `t` is what the database was asked before. -/
def bind (D : Db) (L : Library) (t : List Event) : Except Err Binding := loadAll D L { asked := t } L.preload

/-- Accesses one after another; those that fail change the binding as far as they went. -/
def accesses (D : Db) (L : Library) : Binding → List Str → Binding
  | b, [] => b
  | b, n :: l => accesses D L (getattr D L b n).2 l

end PG.SymLib
