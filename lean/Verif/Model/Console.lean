import Verif.Model.PyStr
import Verif.Model.PyDict
import Verif.Model.PyCommand
/-!
# The console with backslash commands

Models postgresql/python/command.py:206-369 `ExtendedConsole`.  What Python, the editor and the programs executed do is a parameter
(`Shell`), and may depend on everything that happened before.
-/

namespace PG.Console
open PG.PyCommand (Exc Exit)



/-- What happens, in order. -/
inductive Ev where
  /-- a line is given to the Python console -/
  | python (line : Str)
  /-- a file is compiled and executed -/
  | exec (path : Str)
  /-- the editor is started with these files -/
  | edit (paths : List Str)
  /-- a command is run in this process -/
  | command (argv : List Str)
  | wrote (text : Str)
  | printed (e : Exc)
  | unknown (cmd : Str)
  | help
  deriving DecidableEq, Repr

/-- What becomes of a file to be executed. -/
inductive FileRun where
  | unreadable (e : Exc)
  | broken (e : Exc)
  | ran (r : Option Exc)
  deriving DecidableEq, Repr

/-- The world around the console. -/
structure Shell where
  U : Unicode
  /-- `shlex.split` -/
  split : Str → Except Exc (List Str)
  /-- the name the n-th call of `tempfile.mktemp` gives, for a prefix -/
  mktemp : Nat → Str → Str
  run : List Ev → Str → FileRun
  /-- `subprocess.call([editor] + files)`: whether it raises -/
  editor : List Ev → List Str → Option Exc
  /-- `command(argv = ...)` -/
  nested : List Ev → List Str → Except Exc Exit
  /-- `code.InteractiveConsole.push(line)`: the buffer left, and whether it raises -/
  python : List Ev → List Str → Str → List Str × Option Exc

structure Con where
  /-- `self.buffer`: the lines of an incomplete statement -/
  buffer : List Str := []
  /-- `self.temp_files` -/
  temps : List (Str × Str) := []
  environ : List (Str × Str) := []
  trace : List Ev := []
  deriving DecidableEq, Repr

def Con.log (s : Con) (l : List Ev) : Con := { s with trace := s.trace ++ l }

/-- `line.split(None, 1)` of a line that begins with a character that is no space: the first word, and the rest without the spaces
in between; nothing if only spaces follow. -/
def splitCmd (U : Unicode) (line : Str) : Str × Str :=
  (line.takeWhile fun c => !U.isSpace c, (line.dropWhile fun c => !U.isSpace c).dropWhile U.isSpace)

/-- Neither absolute nor with a separator (command.py:292). -/
def plain (path : Str) : Bool := !path.contains '/'

/-- command.py:294: `path.strip().lower()`. -/
def key (U : Unicode) (path : Str) : Str := U.lower (((path.dropWhile U.isSpace).reverse.dropWhile U.isSpace).reverse)

/-- command.py:286-306 `resolve_path(path)`: a temporary file is made up for a new name. -/
def resolve (sh : Shell) (s : Con) (path : Str) : Con × Str :=
  if plain path then
    match PyDict.get (key sh.U path) s.temps with
    | some p => (s, p)
    | none =>
      let p := sh.mktemp s.temps.length ("_console_".toList ++ key sh.U path ++ "_".toList)
      ({ s with temps := PyDict.set (key sh.U path) p s.temps }, p)
  else (s, path)

/-- command.py:286-306 `resolve_path(path, dont_create = True)`. -/
def lookup (sh : Shell) (s : Con) (path : Str) : Str :=
  if plain path then
    match PyDict.get (key sh.U path) s.temps with
    | some p => p
    | none => key sh.U path
  else path

/-- `[self.resolve_path(x) for x in l]` -/
def resolveAll (sh : Shell) : Con → List Str → Con × List Str
  | s, [] => (s, [])
  | s, x :: l => match resolve sh s x with
    | (s, p) => match resolveAll sh s l with
      | (s, ps) => (s, p :: ps)

/-- command.py:308-323 `execfile`. -/
def execfile (sh : Shell) (s : Con) (path : Str) : Con × Option Exc :=
  match sh.run s.trace path with
  | .unreadable e => (s, some e)
  | .broken e => (s.log [.printed e], none)
  | .ran none => (s.log [.exec path], none)
  | .ran (some e) => (s.log [.exec path, .printed e], none)

/-- One after another, up to one that cannot be read. -/
def execfiles (sh : Shell) : Con → List Str → Con × Option Exc
  | s, [] => (s, none)
  | s, p :: l => match execfile sh s p with
    | (s, some e) => (s, some e)
    | (s, none) => execfiles sh s l

/-- command.py:325-329 `editfiles`. -/
def editfiles (sh : Shell) (s : Con) (paths : List Str) : Con × Option Exc := (s.log [.edit paths], sh.editor s.trace paths)

/-- `self.split(arg) or ('',)` -/
def orEmpty (l : List Str) : List Str := if l = [] then [[]] else l

/-- command.py:331-335 `\i`. -/
def bsI (sh : Shell) (s : Con) (arg : Str) : Con × Option Exc :=
  match sh.split arg with
  | .error e => (s, some e)
  | .ok l => execfiles sh s ((orEmpty l).map (lookup sh s))

/-- command.py:337-339 `\E`. -/
def bsEdit (sh : Shell) (s : Con) (arg : Str) : Con × Option Exc :=
  match sh.split arg with
  | .error e => (s, some e)
  | .ok l => match resolveAll sh s (orEmpty l) with
    | (s, ps) => editfiles sh s ps

/-- command.py:341-346 `\e`. -/
def bsEditExec (sh : Shell) (s : Con) (arg : Str) : Con × Option Exc :=
  match sh.split arg with
  | .error e => (s, some e)
  | .ok l => match resolveAll sh s (orEmpty l) with
    | (s, ps) => match editfiles sh s ps with
      | (s, some e) => (s, some e)
      | (s, none) => execfiles sh s ps

/-- `"%s=%s%s" %(k, v, os.linesep)` -/
def assignment (k v : Str) : Str := k ++ '=' :: v ++ ['\n']

/-- command.py:275-281: one word of `\set`.  `os.environ` refuses empty names and null characters. -/
def setWord (s : Con) (x : Str) : Con × Option Exc :=
  if x.contains '=' then
    let k := x.takeWhile (· ≠ '=')
    let v := (x.dropWhile (· ≠ '=')).drop 1
    if k = [] ∨ '\x00' ∈ x then (s, some .valueError)
    else ({ s with environ := PyDict.set k v s.environ }.log [.wrote (assignment k v)], none)
  else if x ≠ [] then (s.log [.wrote (assignment x ((PyDict.get x s.environ).getD []))], none)
  else (s, none)

def setWords : Con → List Str → Con × Option Exc
  | s, [] => (s, none)
  | s, x :: l => match setWord s x with
    | (s, some e) => (s, some e)
    | (s, none) => setWords s l

/-- command.py:270-284 `\set`. -/
def bsSet (sh : Shell) (s : Con) (arg : Str) : Con × Option Exc :=
  if arg ≠ [] then
    match sh.split arg with
    | .error e => (s, some e)
    | .ok l => setWords s l
  else (s.log (s.environ.map fun kv => .wrote (assignment kv.1 kv.2)), none)

/-- `"[Return Value: %d]%s" %(rv, os.linesep)`: a `TypeError` unless it is a number. -/
def returnValue : Exit → Except Exc Str
  | .int n => .ok ("[Return Value: ".toList ++ (toString n).toList ++ "]\n".toList)
  | _ => .error .typeError

/-- command.py:348-357 `\x`. -/
def bsX (sh : Shell) (s : Con) (arg : Str) : Con × Option Exc :=
  match sh.split arg with
  | .error e => (s, some e)
  | .ok l =>
    let argv := "\\x".toList :: l
    let done (s : Con) (rv : Exit) : Con × Option Exc := match returnValue rv with
      | .ok t => (s.log [.wrote t], none)
      | .error e => (s, some e)
    match sh.nested s.trace argv with
    | .ok rv => done (s.log [.command argv]) rv
    | .error (.systemExit rv) => done (s.log [.command argv]) rv
    | .error e => (s.log [.command argv], some e)

/-- command.py:219-231, 245-256 `execslash`. -/
def execslash (sh : Shell) (s : Con) (line : Str) : Con × Option Exc :=
  match splitCmd sh.U line with
  | (cmd, arg) =>
    if cmd = "\\?".toList then (s.log [.help], none)
    else if cmd = "\\set".toList then bsSet sh s arg
    else if cmd = "\\E".toList then bsEdit sh s arg
    else if cmd = "\\i".toList then bsI sh s arg
    else if cmd = "\\e".toList then bsEditExec sh s arg
    else if cmd = "\\x".toList then bsX sh s arg
    else (s.log [.unknown cmd], none)

/-- command.py:359-369 `push(line)`. -/
def push (sh : Shell) (s : Con) (line : Str) : Con × Option Exc :=
  if s.buffer = [] ∧ line.head? = some '\\' then
    match execslash sh s line with
    | (s, some e) => (s.log [.printed e], none)
    | (s, none) => (s, none)
  else match sh.python s.trace s.buffer line with
    | (b, r) => ({ s with buffer := b }.log [.python line], r)

/-- The lines of a session, as long as none raises. -/
def session (sh : Shell) : Con → List Str → Con
  | s, [] => s
  | s, l :: ls => match push sh s l with
    | (s, none) => session sh s ls
    | (s, some _) => s

end PG.Console
