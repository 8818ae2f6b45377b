import Verif.Model.PyCommand
import Verif.Model.PyDict
/-!
# `pg_python`: programs with a connection

Models postgresql/bin/pg_python.py:34-133 `command`, on top of `Model/PyCommand`.  Not modelled: the parsing of the connection's
options (C31, C32), the trace file, and failures of the closing of the connection (C65).
-/

namespace PG.PgPython
open PG.PyCommand (Exc Exit World Code Py Execution PostMortem Run)

/-- The part of the interpreter's state this adds. -/
structure Rest (σ : Type) where
  /-- `__builtins__`: `None` is `none` -/
  builtins : List (Str × Option Nat)
  /-- `postgresql.sys.libpath` -/
  libpath : List Str
  other : σ

/-- What becomes of an attempt to connect. -/
inductive Attempt where
  | connected
  /-- `ClientCannotConnectError`: for each failure, whether it is an `AuthenticationSpecificationError` -/
  | cannot (failures : List Bool)
  /-- the prompt for the password met the end of the input -/
  | eof
  | raised (e : Exc)
  deriving DecidableEq, Repr

/-- What is done with the server, in order. -/
inductive Ev where
  /-- an attempt to connect; whether the password is asked for in any case -/
  | attempt (prompt : Bool)
  /-- `connection.close()` with its socket -/
  | close
  /-- `del connection.pq.socket`: nothing is sent any more -/
  | drop
  deriving DecidableEq, Repr

/-- The exception raised when no server can be reached. -/
def cannotConnect : Exc := .error 8001

/-- pg_python.py:57-87: the attempts; `try_ n prompt` is what becomes of the n-th one.  The number bounds the attempts (`none`:
they go on). -/
def attempts (try_ : Nat → Bool → Attempt) : Nat → Nat → Bool → List Ev × Option (Except Exc Unit)
  | 0, _, _ => ([], none)
  | fuel + 1, n, prompt => match try_ n prompt with
    | .connected => ([.attempt prompt], some (.ok ()))
    | .eof => ([.attempt prompt], some (.error (.systemExit (.int 1))))                      -- 70-71
    | .raised e => ([.attempt prompt], some (.error e))
    | .cannot fs =>
      if fs.any id then match attempts try_ fuel (n + 1) true with                           -- 78-84
        | (l, r) => (.attempt prompt :: l, r)
      else ([.attempt prompt], some (.error cannotConnect))                                  -- 85-87

/-- pg_python.py:94-105: the names of the new built-ins. -/
def names : List Str := ["connector".toList, "db".toList, "do".toList, "prepare".toList, "sqlexec".toList, "settings".toList,
  "proc".toList, "xact".toList]

/-- `d.update(items)` -/
def update (d : List (Str × Option Nat)) (items : List (Str × Option Nat)) : List (Str × Option Nat) :=
  items.foldl (fun d kv => PyDict.set kv.1 kv.2 d) d

/-- pg_python.py:110: `{k : builtins_d.get(k) for k in builtin_overload}` -/
def saved (d : List (Str × Option Nat)) : List (Str × Option Nat) := names.map fun k => (k, (PyDict.get k d).getD none)

/-- The truth of a status. -/
def truth : Exit → Bool
  | .none => false
  | .int n => n ≠ 0
  | .text s => s ≠ []

/-- `issubclass(type, Exception)` -/
def isException : Exc → Bool
  | .systemExit _ => false
  | .interrupt _ => false
  | _ => true

/-- pq3.py:2302-2305 `Connection.__exit__` after an exception, or none. -/
def leave : Option Exc → List Ev
  | none => [.close]
  | some e => if isException e then [.close] else []

/-- pg_python.py:114-121: the end of the program within `with connection`. -/
def ending (r : Run ρ) : List Ev :=
  match r.result with
  | .error e => leave (some e)
  | .ok rv => match r.world.last with
    | some e => if truth rv ∧ isException e = false then [.drop] else [.close]
    | none => [.close]

structure Result (σ : Type) where
  world : World (Rest σ)
  db : List Ev
  result : Except Exc Exit

def withBuiltins (w : World (Rest σ)) (d : List (Str × Option Nat)) : World (Rest σ) := { w with rest := { w.rest with builtins := d } }
def withLibpath (w : World (Rest σ)) (l : List Str) : World (Rest σ) := { w with rest := { w.rest with libpath := l } }

/-- pg_python.py:130-132: `pg_sys.libpath.remove(os.path.curdir)` and the exception again. -/
def failed (w : World (Rest σ)) (db : List Ev) (e : Exc) : Result σ :=
  if ".".toList ∈ w.rest.libpath then { world := withLibpath w (w.rest.libpath.erase ".".toList), db := db, result := .error e }
  else { world := w, db := db, result := .error .valueError }

/-- pg_python.py:89-132: once connected.  `val` are the connection's objects for the names; `exe` is the execution made of the
arguments, or the exception of making it. -/
def connected (py : Py (Rest σ)) (exe : Except Exc Execution) (val : Str → Nat) (me : Nat) (interact : Code (Rest σ))
    (pm : Option (PostMortem (Rest σ))) (db : List Ev) (w : World (Rest σ)) : Result σ :=
  match exe with
  | .error e => failed w db e
  | .ok x =>
    let restore := saved w.rest.builtins
    let r := PyCommand.call py x me interact pm (withBuiltins w (update w.rest.builtins (names.map fun k => (k, some (val k)))))
    let w' := withBuiltins r.world (update r.world.rest.builtins restore)                    -- 122-128
    match r.result with
    | .ok rv => { world := w', db := db ++ ending r, result := .ok rv }
    | .error e => failed w' (db ++ ending r) e

/-- pg_python.py:34-133 `command`.  `load` is the loading of the libraries (47-50), outside of the handlers. -/
def command (py : Py (Rest σ)) (try_ : Nat → Bool → Attempt) (load : Except Exc Unit) (libpath : List Str)
    (exe : Except Exc Execution) (val : Str → Nat) (me : Nat) (interact : Code (Rest σ)) (pm : Option (PostMortem (Rest σ)))
    (fuel : Nat) (w : World (Rest σ)) : Option (Result σ) :=
  let w := withLibpath w (".".toList :: w.rest.libpath ++ libpath)                           -- 45-46
  match load with
  | .error e => some { world := w, db := [], result := .error e }
  | .ok () => match attempts try_ fuel 0 false with
    | (_, none) => none
    | (db, some (.error e)) => some (failed w db e)
    | (db, some (.ok ())) => some (connected py exe val me interact pm db w)

end PG.PgPython
