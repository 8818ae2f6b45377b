import Verif.Model.Encodings
import Verif.Model.PyDict
/-!
# Model of `Cluster.init` (cluster.py:202-303)

The operating system is given by its answers to the calls `init` makes, in the order it makes them; the calls are recorded. Not modelled: the pipes, the text made of the
error output (cluster.py:280-287; the bytes are kept), Windows (cluster.py:301-303 finds no file left on POSIX, where closing removes it), exceptions at other places.
-/
namespace PG.ClusterInit
open PG

/-- The values of keyword arguments. -/
inductive Arg where
  | none
  | text (s : Str)
  /-- A sequence, with the texts `str` gives of its items. -/
  | items (l : List Str)
  | file (fd : Nat)
  deriving DecidableEq, Repr

/-- The truth of a value. -/
def Arg.truth : Arg → Bool
  | .none => false
  | .text s => ! s.isEmpty
  | .items l => ! l.isEmpty
  | .file _ => true

/-- The exceptions of `init` (cluster.py:202-303). -/
inductive Exn where
  /-- `ClusterInitializationError`. -/
  | noProgram
  | type
  | attribute
  /-- No such encoding. -/
  | lookup
  /-- The password cannot be written in the encoding. -/
  | encode
  | os (e : Nat)
  /-- `InitDBError`, with the status, the command and the error output. -/
  | initdb (status : Int) (command : List Str) (stderr : Bytes)
  /-- Another exception while waiting (`KeyboardInterrupt`). -/
  | interrupted
  deriving DecidableEq, Repr

/-- The calls made. -/
inductive Call where
  /-- A new temporary file, opened with an encoding, and its name. -/
  | create (name : Str) (encoding : Str)
  /-- Text written to it, and flushed. -/
  | write (name : Str) (text : Str)
  | spawn (command : List Str) (stdout : Option Arg)
  | wait (timeout : Option Int)
  | kill
  /-- The temporary file closed, which removes it. -/
  | close (name : Str)
  deriving DecidableEq, Repr

/-- How a wait ends: the process has ended, with its status and the error output; the time is up; another exception. -/
inductive Wait where
  | ended (status : Int) (stderr : Bytes)
  | expired
  | interrupted
  deriving DecidableEq, Repr

/-- The answers of the operating system and of Python's codecs. -/
structure World where
  /-- The name of a new temporary file. -/
  temp : Except Nat Str
  /-- Whether there is a codec of a name. -/
  codec : Str → Bool
  /-- Whether a text can be written in an encoding. -/
  encodable : Str → Str → Bool
  /-- What writing and flushing comes to. -/
  writing : Option Nat
  spawn : Option Nat
  first : Wait
  /-- The wait without a limit, after `kill`: status and error output, or another exception. -/
  second : Option (Int × Bytes)

/-- The installation and the directory. -/
structure Config where
  initdb : Option Str
  pgCtl : Option Str
  dataDir : Str

/-- cluster.py:211-224: the program; `none` raises. -/
def program (C : Config) : Option (List Str) :=
  match C.initdb with
  | some i => some [i]
  | none => match C.pgCtl with
    | some p => some [p, "initdb".toList]
    | none => none

/-- cluster.py:80-88 `initdb_option_map`. -/
def optionMap : List (Str × Str) := [("encoding".toList, "-E".toList), ("authentication".toList, "-A".toList), ("user".toList, "-U".toList)]

/-- `kw.setdefault('encoding', 'utf-8')` (cluster.py:229). -/
def withEncoding (kw : List (Str × Arg)) : List (Str × Arg) :=
  match PyDict.get "encoding".toList kw with
  | some _ => kw
  | none => kw ++ [("encoding".toList, .text "utf-8".toList)]

/-- The loop over the keywords (cluster.py:230-237): the options and their values, `none` raises. -/
def options : List (Str × Arg) → Option (List Arg)
  | [] => some []
  | (k, v) :: l =>
    if k = "logfile".toList || k = "extra_arguments".toList then options l
    else match PyDict.get k optionMap with
      | none => none
      | some o => (options l).map fun r => .text o :: v :: r

/-- `[str(x) for x in kw.get('extra_arguments', ())]` (cluster.py:239-241). -/
def extra : Option Arg → Option (List Str)
  | none => some []
  | some (.items l) => some l
  | some (.text s) => some (s.map fun c => [c])
  | some .none => none
  | some (.file _) => none

/-- `kw.get('logfile') or PIPE`: `none` is the pipe. -/
def logfile : Option Arg → Option Arg
  | some a => if a.truth then some a else none
  | none => none

/-- The texts of a command, `none` if it has another value. -/
def texts : List Arg → Option (List Str)
  | [] => some []
  | .text s :: l => (texts l).map (s :: ·)
  | _ :: _ => none

/-- `Popen` (cluster.py:259-268): the arguments must be texts and the log a file. -/
def popen (W : World) (cmd : List Arg) (out : Option Arg) : Except Exn (List Str) :=
  match texts cmd with
  | none => .error .type
  | some c => match out with
    | some (.text _) => .error .attribute
    | some (.items _) => .error .attribute
    | _ => match W.spawn with
      | some e => .error (.os e)
      | none => .ok c

/-- cluster.py:270-298: waiting, and the status. -/
def finish (W : World) (cmd : List Str) (timeout : Option Int) : Except Exn Unit × List Call :=
  match W.first with
  | .interrupted => (.error .interrupted, [.wait timeout])
  | .ended r err => (if r ≠ 0 then .error (.initdb r cmd err) else .ok (), [.wait timeout])
  | .expired => match W.second with
    | none => (.error .interrupted, [.wait timeout, .kill, .wait none])
    | some (r, err) => (if r ≠ 0 then .error (.initdb r cmd err) else .ok (), [.wait timeout, .kill, .wait none])

/-- cluster.py:254-298, once the password is written. -/
def run (C : Config) (W : World) (prog : List Str) (opts : List Arg) (pw : List Str) (ext : List Str) (out : Option Arg) (timeout : Option Int) : Except Exn Unit × List Call :=
  match popen W (prog.map .text ++ [.text "-D".toList, .text C.dataDir] ++ opts ++ pw.map .text ++ ext.map .text) out with
  | .error e => (.error e, [])
  | .ok cmd => let r := finish W cmd timeout; (r.1, .spawn cmd out :: r.2)

/-- `get_python_name(kw['encoding'])` (cluster.py:248). -/
def fileEncoding : Option Arg → Except Exn Str
  | some (.text s) => .ok (Encodings.getPythonName s)
  | some (.items _) => .error .type
  | _ => .error .attribute

/-- The `try` of `init` (cluster.py:245-303). -/
def guarded (C : Config) (W : World) (prog : List Str) (kw : List (Str × Arg)) (opts : List Arg) (ext : List Str) (password : Option Str) (timeout : Option Int) :
    Except Exn Unit × List Call :=
  match password with
  | none => run C W prog opts [] ext (logfile (PyDict.get "logfile".toList kw)) timeout
  | some pw => match fileEncoding (PyDict.get "encoding".toList kw) with
    | .error e => (.error e, [])
    | .ok enc =>
      if W.codec enc then
        match W.temp with
        | .error e => (.error (.os e), [])
        | .ok name =>
          if W.encodable enc pw then
            match W.writing with
            | some e => (.error (.os e), [.create name enc, .close name])
            | none =>
              let r := run C W prog opts ["--pwfile=".toList ++ name] ext (logfile (PyDict.get "logfile".toList kw)) timeout
              (r.1, .create name enc :: .write name pw :: r.2 ++ [.close name])
          else (.error .encode, [.create name enc, .close name])
      else (.error .lookup, [])

/-- cluster.py:202-303 `init`. -/
def init (C : Config) (W : World) (password : Option Str) (timeout : Option Int) (kw : List (Str × Arg)) : Except Exn Unit × List Call :=
  match program C with
  | none => (.error .noProgram, [])
  | some prog => match options (withEncoding kw) with
    | none => (.error .type, [])
    | some opts => match extra (PyDict.get "extra_arguments".toList kw) with
      | none => (.error .type, [])
      | some ext => guarded C W prog (withEncoding kw) opts ext password timeout

end PG.ClusterInit
