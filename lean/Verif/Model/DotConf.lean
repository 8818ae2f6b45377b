import Verif.Model.ConfigFile
/-!
# Model of `postgresql/bin/pg_dotconf.py`: the command that edits a configuration file

After `optparse` has taken the options (14-32, not modelled): the texts of the `-f` files, `--stdout`, and the arguments.
The file is its text; what is written to standard output is a text.
-/
namespace PG.DotConf
open PG PG.PyStr

/-- How the command ends: `sys.exit` or `return` with a status, or an exception. -/
inductive End where
  | status (code : Nat)
  | nameError
  | err (e : Err)
  deriving DecidableEq, Repr

/-- The end of the command, the configuration file then, and what was written to standard output. -/
structure Outcome where
  result : End
  file : Str
  out : Str
  deriving DecidableEq, Repr

/-- What `optparse` gives (pg_dotconf.py:33): the texts of the `-f` files, `--stdout`, whether the file is `/dev/stdin`, and the other arguments
(`none`: there is not even a file). -/
structure Options where
  settings : List Str
  stdout : Bool
  stdin : Bool
  params : Option (List Str)

/-- pg_dotconf.py:38-44: the `-f` files. `comment` and `unquote` are not defined in the module: a line that `parse_line` accepts raises NameError. -/
def settingsFiles (U : Unicode) (files : List Str) : Option End :=
  if files.any fun f => (ConfigFile.readLines f).any fun l => (ConfigFile.parseLine U l).isSome then some .nameError else none

/-- pg_dotconf.py:48-53: the name and the value of an argument. -/
def param (U : Unicode) (p : Str) : Str × Option Str :=
  match splitMax '=' 1 p with
  | [k, v] => (strip U k, some v)
  | _ => (strip U p, none)

/-- pg_dotconf.py:46-65: all arguments; `none`: one has no name. -/
def params (U : Unicode) : List Str → ConfigFile.Map → Option ConfigFile.Map
  | [], settings => some settings
  | p :: ps, settings =>
    let kv := param U p
    if kv.1 = [] then none else params U ps (PyDict.set kv.1 kv.2 settings)

/-- pg_dotconf.py:10-77 `command`. -/
def command (U : Unicode) (o : Options) (file : Str) : Outcome :=
  match o.params with
  | none => ⟨.status 0, file, []⟩
  | some ps =>
    match settingsFiles U o.settings with
    | some e => ⟨e, file, []⟩
    | none =>
      match params U ps [] with
      | none => ⟨.status 1, file, []⟩
      | some settings =>
        match ConfigFile.alterConfig U settings (ConfigFile.readLines file) with
        | .error e => ⟨.err e, file, []⟩
        | .ok lines =>
          if o.stdout || o.stdin then ⟨.status 0, file, lines.flatten⟩
          else ⟨.status 0, ConfigFile.save lines, []⟩

end PG.DotConf
