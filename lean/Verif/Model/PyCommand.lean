/-!
# Running Python programs: `postgresql.python.command`

Models postgresql/python/command.py: the options `-C`, `-c`, `-m`, the choice of the main program (`Execution.__init__`), its run
(`Execution._call`), the restoring of the interpreter's state (`Execution.__call__`) and the post mortem context manager.

What Python itself does is a parameter (`Py`): compiling a text, reading a file, finding a module.  A compiled program is any
function that changes the interpreter's state in any way and may raise.  The namespace of `__main__`, the files, the streams and
everything else are in `rest`, of which nothing is said.
-/

namespace PG.PyCommand

abbrev Str := List Char

/-- The `code` of a `SystemExit`; also the return value of a run (`rv`). -/
inductive Exit where
  | none
  | int (n : Int)
  | text (s : Str)
  deriving DecidableEq, Repr

/-- Exceptions.  `error` stands for every other subclass of `Exception`, `interrupt` for every other `BaseException`. -/
inductive Exc where
  | systemExit (code : Exit)
  | valueError
  | typeError
  | fileNotFound
  | importError
  | error (k : Nat)
  | interrupt (k : Nat)
  deriving DecidableEq, Repr

/-- What is written to the standard error stream. -/
inductive Said where
  /-- `print_exception` -/
  | trace (e : Exc)
  /-- command.py:496-502: the context's title and path -/
  | missing (title path : Str)
  /-- command.py:385-389 -/
  | noPostmortem
  /-- command.py:397-400 -/
  | postmortemRaised
  deriving DecidableEq, Repr

/-- An entry of `sys.modules`: absent, `None`, or a module. -/
abbrev Slot := Option (Option Nat)

/-- `sys.modules.get(name)` -/
def Slot.get (s : Slot) : Option Nat := s.getD none

/-- `os.environ`: its entries, and whether it is the object that also changes the environment of the process (`os.environ.copy()`
is a plain dictionary, which does not). -/
structure Environ where
  live : Bool
  vars : List (Str × Str)
  deriving DecidableEq, Repr

/-- The interpreter's state. -/
structure World (ρ : Type) where
  /-- `sys.argv` -/
  argv : List (Option Str)
  /-- `sys.modules['__main__']` -/
  main : Slot
  /-- `sys.modules['__context__']` -/
  context : Slot
  environ : Environ
  /-- the environment child processes inherit -/
  procEnv : List (Str × Str)
  /-- `sys.last_type`, `sys.last_value` -/
  last : Option Exc
  /-- `__main__.__file__` of the run -/
  file : Option Str
  err : List Said
  rest : ρ

/-- `exec(code, md, md)` -/
abbrev Code (ρ : Type) := World ρ → World ρ × Option Exc

/-- What Python does. -/
structure Py (ρ : Type) where
  /-- `compile(source, filename, 'exec')` -/
  compile : Str → Except Exc (Code ρ)
  /-- `open(path).read()` -/
  read : World ρ → Str → Except Exc Str
  /-- `pkgutil.get_loader(name)`: whether there is a loader, or an exception -/
  getLoader : World ρ → Str → Except Exc Bool
  /-- the module loader's `get_code(name)`; `none` for modules without Python code -/
  modCode : World ρ → Str → Except Exc (Option (Code ρ))
  /-- the module loader's `get_filename(name)` -/
  modFile : Str → Str

/-- command.py:62-79 `single_loader`, 81-110 `file_loader` (with the text it was given, if any), and the loaders of modules. -/
inductive Loader where
  | single (source : Str)
  | script (path : Str) (source : Option Str)
  | module (name : Str)
  deriving DecidableEq, Repr

/-- command.py:122-130: the loader descriptors. -/
inductive Desc where
  | module
  | file
  | single
  deriving DecidableEq, Repr

/-- command.py:122-130: the titles. -/
def Desc.title : Desc → Str
  | .module => "Python module".toList
  | .file => "Python script".toList
  | .single => "Python command".toList

/-- `x[7:]` if `x.startswith(p)`, for a prefix `p` of seven characters (command.py:112-120). -/
def after7 (p x : Str) : Option Str := if p.isPrefixOf x then some (x.drop 7) else none

/-- command.py:112-130: `extract_filepath`, `extract_module`, and the identity. -/
def Desc.extract : Desc → Str → Option Str
  | .module, x => after7 "module:".toList x
  | .file, x => after7 "file://".toList x
  | .single, x => some x

/-- command.py:132-142 `find_loader`, with the default directory: modules, then files. -/
def findLoader (ident : Str) : Option Desc :=
  if (Desc.module.extract ident).isSome then some .module
  else if (Desc.file.extract ident).isSome then some .file
  else none

/-- What the options amount to. -/
structure Parsed where
  context : List (Str × Desc) := []
  main : Option (Str × Desc) := none
  args : List Str := []
  deriving DecidableEq, Repr

/-- How parsing the command line ends: `p.error` and `--help` raise `SystemExit`. -/
inductive Parse where
  | ok (p : Parsed)
  | exit
  deriving DecidableEq, Repr

/-- command.py:148-161 `append_context`. -/
def appendContext (p : Parsed) (value : Str) : Parsed :=
  { p with context := p.context ++ [(value, (findLoader value).getD .single)] }

/-- command.py:163-171 `set_python_main`: the rest is put behind a `--`, which ends the parsing. -/
def setMain (p : Parsed) (value : Str) (d : Desc) (rest : List Str) : Parsed := { p with main := some (value, d), args := rest }

/-- The option an argument is and the value attached to it (optparse: `-Cx`, `--context=x`).  Simplified: abbreviations of
`--context` and the bundling of short options are not modelled (they end in `exit` here). -/
inductive Arg where
  | positional
  | dashes
  | context (attached : Option Str)
  | main (d : Desc) (attached : Option Str)
  | bad
  deriving DecidableEq, Repr

def attached (x : Str) : Option Str := if x = [] then none else some x

/-- optparse's `_process_args`, `_process_long_opt`, `_process_short_opts` for the three options of command.py:173-203. -/
def classify (a : Str) : Arg :=
  match a with
  | '-' :: '-' :: [] => .dashes
  | '-' :: '-' :: r =>
    if r = "context".toList then .context none
    else if "context=".toList.isPrefixOf r then .context (some (r.drop 8))
    else .bad
  | '-' :: 'C' :: r => .context (attached r)
  | '-' :: 'm' :: r => .main .module (attached r)
  | '-' :: 'c' :: r => .main .single (attached r)
  | '-' :: _ :: _ => .bad
  | _ => .positional

/-- command.py:609-627: the command line is parsed with interspersed arguments disabled. -/
def parse : Parsed → List Str → Parse
  | p, [] => .ok p
  | p, a :: rest => match classify a with
    | .positional => .ok { p with args := a :: rest }
    | .dashes => .ok { p with args := rest }
    | .context (some v) => parse (appendContext p v) rest
    | .context none => match rest with
      | v :: rest => parse (appendContext p v) rest
      | [] => .exit
    | .main d (some v) => .ok (setMain p v d rest)
    | .main d none => match rest with
      | v :: rest => .ok (setMain p v d rest)
      | [] => .exit
    | .bad => .exit

/-- The loader of a descriptor called with a path: `module_loader(path)`, `file_loader(path)`, `single_loader(path)`. -/
def Desc.load (py : Py ρ) (w : World ρ) : Desc → Str → Except Exc (Option Loader)
  | .module, x => match py.getLoader w x with
    | .ok true => .ok (some (.module x))
    | .ok false => .ok none
    | .error e => .error e
  | .file, x => .ok (some (.script x none))
  | .single, x => .ok (some (.single x))

/-- command.py:73-75, 107-110 `get_code(fullpath)`. -/
def Loader.code (py : Py ρ) (w : World ρ) : Loader → Str → Except Exc (Option (Code ρ))
  | .single s, p => if p = s then (py.compile s).map some else .ok none
  | .script f src, p =>
    if p ≠ f then .ok none
    else match src with
      | some s => (py.compile s).map some
      | none => match py.read w f with
        | .ok s => (py.compile s).map some
        | .error e => .error e
  | .module _, p => py.modCode w p

/-- command.py:69-71, 90-92 `get_filename(fullpath)`. -/
def Loader.filename (py : Py ρ) : Loader → Str → Option Str
  | .single s, p => if p = s then some "<command>".toList else none
  | .script f _, p => if p = f then some f else none
  | .module _, p => some (py.modFile p)

/-- `exec(code, md, md)` of what `get_code` returned: `exec(None)` is a `TypeError`. -/
def exec (c : Option (Code ρ)) (w : World ρ) : World ρ × Option Exc :=
  match c with
  | some c => c w
  | none => (w, some .typeError)

/-- The standard input when the execution is created. -/
structure Stdin where
  tty : Bool
  text : Str

/-- An `Execution`; no `main` is the console, `(None, None)`. -/
structure Execution where
  args : List Str
  context : List (Str × Desc)
  main : Option (Str × Loader)
  deriving DecidableEq, Repr

/-- command.py:413-467 `Execution.__init__`, without an explicit `main`. -/
def init (py : Py ρ) (w : World ρ) (stdin : Stdin) (p : Parsed) : Except Exc Execution :=
  match p.main with
  | some (path, d) => match d.load py w path with                                            -- 436-447
    | .error e => .error e
    | .ok none => .error .importError
    | .ok (some l) => .ok { args := p.args, context := p.context, main := some (path, l) }
  | none => match p.args with
    | fp :: rest => match py.read w fp with                                                 -- 449-457
      | .error e => .error e
      | .ok s => .ok { args := rest, context := p.context, main := some (fp, .script fp (some s)) }
    | [] =>
      if stdin.tty = false then                                                             -- 460-462
        .ok { args := [], context := p.context, main := some ("<stdin>".toList, .script "<stdin>".toList (some stdin.text)) }
      else .ok { args := [], context := p.context, main := none }                           -- 464-466

/-- What the run does, in order. -/
inductive Ev where
  /-- a program is executed: its path, its loader, `sys.argv` and `__file__` as it starts -/
  | exec (path : Str) (l : Loader) (argv : List (Option Str)) (file : Option Str)
  /-- the console is started with this `sys.argv` -/
  | console (argv : List (Option Str))
  /-- the post mortem function is called because of this exception -/
  | postmortem (e : Exc)
  deriving DecidableEq, Repr

/-- How a run ends. -/
structure Run (ρ : Type) where
  world : World ρ
  trace : List Ev
  result : Except Exc Exit

/-- `print_exception` -/
def say (w : World ρ) (s : List Said) : World ρ := { w with err := w.err ++ s }

/-- command.py:492-517: the contexts, one after another; whether to go on, or how it ends. -/
def contexts (py : Py ρ) : List (Str × Desc) → World ρ → World ρ × List Ev × Option (Except Exc Exit)
  | [], w => (w, [], none)
  | (path, d) :: cs, w => match d.extract path with
    | none => (w, [], some (.error .typeError))
    | some r => match d.load py w r with
      | .error e => (w, [], some (.error e))
      | .ok none => (say w [.missing d.title r], [], some (.ok (.int 1)))
      | .ok (some l) => match l.code py w r with
        | .error e => (say w [.trace e], [], some (.ok (.int 1)))
        | .ok c =>
          let w := { w with file := l.filename py r }
          match exec c w with
          | (w', some e) => (say w' [.trace e], [.exec r l w.argv w.file], some (.ok (.int 1)))
          | (w', none) => match contexts py cs w' with
            | (w'', t, o) => (w'', .exec r l w.argv w.file :: t, o)

/-- The post mortem function's import: `__import__(modpath)` and `getattr(m, attr, None)`, which may do anything and may raise. -/
abbrev PostMortem (ρ : Type) := World ρ → World ρ × Except Exc (Option (Code ρ))

/-- command.py:371-401 `postmortem(funcpath)` around a program; `none` for an empty path.  The `Bool` says whether the exception
came from the program (`exe_exception`). -/
def withPm (pm : Option (PostMortem ρ)) (path : Str) (l : Loader) (c : Option (Code ρ)) (w : World ρ) :
    World ρ × List Ev × Option (Bool × Exc) :=
  match pm with
  | none => match exec c w with
    | (w', r) => (w', [.exec path l w.argv w.file], r.map fun e => (true, e))
  | some enter =>
    let body (ob : Option (Code ρ)) (w : World ρ) : World ρ × List Ev × Option (Bool × Exc) :=
      match exec c w with
      | (w', none) => (w', [.exec path l w.argv w.file], none)
      | (w', some e) => match exec ob { w' with last := some e } with                        -- 392-395
        | (w'', none) => (w'', [.exec path l w.argv w.file, .postmortem e], some (true, e))
        | (w'', some e') => (say w'' [.postmortemRaised, .trace e'], [.exec path l w.argv w.file, .postmortem e], some (true, e))
    match enter w with
    | (w, .ok ob) => body ob w
    | (w, .error .valueError) => body none (say w [.noPostmortem])                           -- 382-389
    | (w, .error e) => (w, [], some (false, e))

/-- command.py:535-584: the main program. -/
def runMain (py : Py ρ) (args : List Str) (path : Str) (l : Loader) (pm : Option (PostMortem ρ)) (w : World ρ) : Run ρ :=
  let w := { w with file := l.filename py path, argv := l.filename py path :: args.map some }  -- 538-542
  match l.code py w path with
  | .error e => { world := say w [.trace e], trace := [], result := .ok (.int 1) }           -- 543-547
  | .ok c => match withPm pm path l c w with
    | (w, t, none) => { world := w, trace := t, result := .ok (.int 0) }
    | (w, t, some (_, .systemExit r)) => { world := { w with last := some (.systemExit r) }, trace := t, result := .ok r }  -- 566-573
    | (w, t, some (true, e)) => { world := { say w [.trace e] with last := some e }, trace := t, result := .ok (.int 1) }   -- 577-582
    | (w, t, some (false, e)) => { world := w, trace := t, result := .error e }              -- 575-576

/-- command.py:519-534: the console; `interact` is the console's session. -/
def runConsole (args : List Str) (interact : Code ρ) (w : World ρ) : Run ρ :=
  let w := { w with argv := if args = [] then [some "<console>".toList] else args.map some }
  match interact w with
  | (w', none) => { world := w', trace := [.console w.argv], result := .ok (.int 0) }
  | (w', some (.systemExit r)) => { world := w', trace := [.console w.argv], result := .ok r }
  | (w', some e) => { world := w', trace := [.console w.argv], result := .error e }

/-- command.py:478-584 `_call`; `me` is the module made for the run (`reset_module__main__`, 469-476). -/
def call' (py : Py ρ) (x : Execution) (me : Nat) (interact : Code ρ) (pm : Option (PostMortem ρ)) (w : World ρ) : Run ρ :=
  match contexts py x.context { w with main := some (some me) } with
  | (w, t, some r) => { world := w, trace := t, result := r }
  | (w, t, none) => match x.main with
    | none => let r := runConsole x.args interact w; { r with trace := t ++ r.trace }
    | some (path, l) => let r := runMain py x.args path l pm w; { r with trace := t ++ r.trace }

/-- command.py:586-598 `__call__`. -/
def call (py : Py ρ) (x : Execution) (me : Nat) (interact : Code ρ) (pm : Option (PostMortem ρ)) (w : World ρ) : Run ρ :=
  let r := call' py x me interact pm w
  { r with world := { r.world with
      context := some w.context.get, main := some w.main.get, argv := w.argv,
      environ := { live := false, vars := w.environ.vars } } }

/-- command.py:609-632 `command(argv)`: `argv[0]` is ignored.  Simplified: `--help` and `--version`, which exit with 0, are not
distinguished from errors, which exit with 2, and `sys.path` is not modelled. -/
def command (py : Py ρ) (stdin : Stdin) (argv : List Str) (me : Nat) (interact : Code ρ) (pm : Option (PostMortem ρ)) (w : World ρ) :
    Run ρ :=
  match parse {} argv.tail with
  | .exit => { world := w, trace := [], result := .error (.systemExit (.int 2)) }
  | .ok p => match init py w stdin p with
    | .error e => { world := w, trace := [], result := .error e }
    | .ok x => call py x me interact pm w

end PG.PyCommand
