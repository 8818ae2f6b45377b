import Verif.Model.PyStr
import Verif.Model.PyDict
import Verif.Model.PgString
import Verif.Model.VersionString
/-!
# Model of `postgresql/installation.py`, and of `find_file` and `find_executable` of `postgresql/python/os.py`

What a program answers to its arguments, the environment and the files there are, are given. Not modelled: Windows, `_e_metas`, `__repr__`, the encodings other than as text or failure.
-/
namespace PG.Installation
open PG PG.PyStr

/-- The exceptions of these functions. -/
inductive Exn where
  /-- The program cannot be run. -/
  | os
  /-- `TimeoutExpired`: killed, and not ended two seconds later. -/
  | timeout
  /-- `UnicodeDecodeError`. -/
  | decode
  | attribute
  | key
  | value
  deriving DecidableEq, Repr

/-- How a program ends: with status 0 and a text, or bytes that are not text; with another status (when it is killed too); killed without ending; not started. -/
inductive Outcome where
  | text (s : Str)
  | garbage
  | failed
  | stuck
  | missing
  deriving DecidableEq, Repr

/-- The answers of `pg_config` to its arguments. -/
abbrev Program := List Str → Outcome

/-- installation.py:22-43 `get_command_output`, where `none` is `None`. -/
def commandOutput (U : Unicode) (P : Program) (args : List Str) : Except Exn (Option Str) :=
  match P (args.map fun x => "--".toList ++ strip U x) with
  | .text s => .ok (some s)
  | .garbage => .error .decode
  | .failed => .ok none
  | .stuck => .error .timeout
  | .missing => .error .os

/-- The characters that end a line for `str.splitlines`. -/
def isBreak (c : Char) : Bool := [10, 11, 12, 13, 28, 29, 30, 133, 8232, 8233].contains c.toNat

/-- `s.splitlines()`. -/
def lines : Str → List Str
  | [] => []
  | [c] => if isBreak c then [[]] else [[c]]
  | c :: d :: s =>
    if c = '\r' ∧ d = '\n' then [] :: lines s
    else if isBreak c then [] :: lines (d :: s)
    else consHead c (lines (d :: s))

/-- One line of the output (installation.py:53-58). -/
def addLine (U : Unicode) (d : List (Str × Str)) (x : Str) : List (Str × Str) :=
  if '=' ∈ x then
    match PyStr.splitMax '=' 1 x with
    | [k, v] => PyDict.set (strip U (U.lower k)) (strip U v) d
    | _ => d
  else d

/-- `l.find('--')`. -/
def findDashes : Str → Option Nat
  | [] => none
  | [_] => none
  | a :: b :: s => if a = '-' ∧ b = '-' then some 0 else (findDashes (b :: s)).map (· + 1)

/-- An option in a line of `--help` (installation.py:68-73); without a blank after it the last character is cut off. -/
def helpOption (l : Str) : Option Str :=
  match findDashes l with
  | none => none
  | some d => match find ' ' l d with
    | some e => some ((l.take e).drop (d + 2))
    | none => some (l.dropLast.drop (d + 2))

/-- `None.splitlines()` is an `AttributeError`. -/
def outputLines : Except Exn (Option Str) → Except Exn (List Str)
  | .error e => .error e
  | .ok none => .error .attribute
  | .ok (some s) => .ok (lines s)

/-- installation.py:61-81: the way of old versions. -/
def oldDictionary (U : Unicode) (P : Program) : Except Exn (List (Str × Str)) :=
  match outputLines (commandOutput U P ["help".toList]) with
  | .error e => .error e
  | .ok h =>
    let opt := ((h.filterMap helpOption).erase "help".toList).erase "version".toList
    match outputLines (commandOutput U P opt) with
    | .error e => .error e
    | .ok out => match commandOutput U P ["version".toList] with
      | .error e => .error e
      | .ok none => .error .attribute
      | .ok (some v) => .ok (PyDict.set "version".toList (strip U v) ((opt.zip out).foldl (fun d e => PyDict.set e.1 e.2 d) []))

/-- installation.py:45-81 `pg_config_dictionary`. -/
def pgConfigDictionary (U : Unicode) (P : Program) : Except Exn (List (Str × Str)) :=
  match commandOutput U P [] with
  | .error e => .error e
  | .ok (some s) => .ok ((lines s).foldl (addLine U) [])
  | .ok none => oldDictionary U P

/-- The value of an option: text, or `True`. -/
inductive Value where
  | text (s : Str)
  | given
  deriving DecidableEq, Repr

/-- installation.py:86-98: the quote. An empty text is "in" the quotes, and the quote is empty then. -/
def quoteOf (confopt : Str) : Option Char :=
  match confopt with
  | [] => none
  | c :: _ =>
    if c = '\'' ∨ c = '"' then some c
    else match confopt.getLast? with
      | some z => if z = '\'' ∨ z = '"' then some z else some '\''
      | none => some '\''

/-- `x.strip('-\'"')`. -/
def stripDashQuotes (x : Str) : Str :=
  ((x.dropWhile fun c => c = '-' || c = '\'' || c = '"').reverse.dropWhile fun c => c = '-' || c = '\'' || c = '"').reverse

/-- One part (installation.py:104-117). -/
def optionOf (q : Char) (x : Str) : Option (Str × Value) :=
  match PyStr.splitMax '=' 1 (stripDashQuotes (undouble q x)) with
  | k :: v =>
    let key := k.map fun c => if c = '-' then '_' else c
    if key = [] then none
    else match v with
      | [] => some (key, .given)
      | w :: _ => some (key, .text w)
  | [] => none

/-- installation.py:86-117 `parse_configure_options`, as a list. For an empty text the parts are one empty text, without a key. -/
def parseConfigure (confopt : Str) : List (Str × Value) :=
  match quoteOf confopt with
  | none => []
  | some q => (PgString.splitUsing confopt q ' ' (-1)).filterMap (optionOf q)

/-- `os.path.join(a, b)` on POSIX. -/
def pathJoin (a b : Str) : Str :=
  if b.head? = some '/' then b
  else if a = [] ∨ a.getLast? = some '/' then a ++ b
  else a ++ '/' :: b

/-- python/os.py:18-28 `find_file`. -/
def findFile (fileExists : Str → Bool) (name : Str) : List Str → Option Str
  | [] => none
  | x :: l => if fileExists (pathJoin x name) then some (pathJoin x name) else findFile fileExists name l

/-- The system: the environment and the files. -/
structure System where
  env : List (Str × Str)
  fileExists : Str → Bool

/-- python/os.py:34-36 `find_executable`. -/
def findExecutable (S : System) (name : Str) : Option Str := findFile S.fileExists name (split ':' ((PyDict.get "PATH".toList S.env).getD []))

/-- installation.py:119-131 `default_pg_config`. -/
def defaultPgConfig (S : System) : Option Str :=
  match PyDict.get "PGINSTALLATION".toList S.env with
  | some p => if p ≠ [] then some p else findExecutable S "pg_config".toList
  | none => findExecutable S "pg_config".toList

/-- installation.py:144-166 `pg_executables`. -/
def executables : List Str :=
  ["pg_config", "psql", "initdb", "pg_resetxlog", "pg_controldata", "clusterdb", "pg_ctl", "pg_dump", "pg_dumpall", "postgres", "postmaster", "reindexdb", "vacuumdb", "ipcclean", "createdb",
    "ecpg", "createuser", "createlang", "droplang", "dropuser", "pg_restore"].map String.toList

/-- installation.py:175-187 `pg_directories`. -/
def directories : List Str :=
  ["bindir", "docdir", "includedir", "pkgincludedir", "includedir_server", "libdir", "pkglibdir", "localedir", "mandir", "sharedir", "sysconfdir"].map String.toList

/-- `s.split()`: the words. -/
def wordsFrom (U : Unicode) (w : Str) : Str → List Str
  | [] => if w = [] then [] else [w]
  | c :: s => if U.isSpace c then (if w = [] then wordsFrom U [] s else w :: wordsFrom U [] s) else wordsFrom U (w ++ [c]) s

/-- `s.split()`. -/
def words (U : Unicode) (s : Str) : List Str := wordsFrom U [] s

/-- An `Installation`. -/
structure Inst where
  version : Str
  kind : Str
  versionInfo : List VersionString.Item
  configure : List (Str × Value)
  paths : List (Str × Option Str)

/-- The path of an executable (installation.py:227-233). -/
def executable (S : System) (bindir : Str) (k : Str) : Option Str := if S.fileExists (pathJoin bindir k) then some (pathJoin bindir k) else none

/-- installation.py:219-234: the paths. -/
def pathsOf (S : System) (info : List (Str × Str)) : List (Str × Option Str) :=
  let d := directories.foldl (fun d k => PyDict.set k (PyDict.get k info) d) []
  match PyDict.get "bindir".toList info with
  | none => executables.foldl (fun d k => PyDict.set k none d) d
  | some b => executables.foldl (fun d k => PyDict.set k (executable S b k) d) d

/-- installation.py:206-235 `Installation.__init__`. -/
def installation (U : Unicode) (S : System) (info : List (Str × Str)) : Except Exn Inst :=
  match PyDict.get "version".toList info with
  | none => .error .key
  | some v => match words U v with
    | [kind, vs] => match VersionString.split vs with
      | .error _ => .error .value
      | .ok t => match VersionString.normalize t with
        | .error _ => .error .value
        | .ok n => .ok {
            version := v
            kind := kind
            versionInfo := n
            configure := (parseConfigure ((PyDict.get "configure".toList info).getD [])).foldl (fun d e => PyDict.set e.1 e.2 d) []
            paths := pathsOf S info }
    | _ => .error .value

/-- `'with_ssl' in x`. -/
def mentionsSsl : Str → Bool
  | [] => false
  | c :: s => "with_ssl".toList.isPrefixOf (c :: s) || mentionsSsl s

/-- installation.py:237-249 `ssl`. -/
def ssl (i : Inst) : Bool := (PyDict.get "with_openssl".toList i.configure).isSome || i.configure.any fun e => mentionsSsl e.1

/-- installation.py:251-259 `default`, where the answers of the program at a path are given. -/
def default (U : Unicode) (S : System) (programs : Str → Program) : Except Exn (Option Inst) :=
  match defaultPgConfig S with
  | none => .ok none
  | some p => match pgConfigDictionary U (programs p) with
    | .error e => .error e
    | .ok info => match installation U S info with
      | .error e => .error e
      | .ok i => .ok (some i)

end PG.Installation
