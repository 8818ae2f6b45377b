import Verif.Model.ConfigFile
import Verif.Model.PyInt
/-!
# Model of the control of a server: `postgresql/cluster.py`, `Cluster` (all of it but `init`, see `Model/ClusterInit`)

The operating system, the server and the clock are an arbitrary sequence of instants: call number `i` of the program is answered by the
instant `i` (a universally quantified sequence of instants covers every effect the signals may have, and every race). The calls the program makes
are recorded in order, so the number of the next call is the length of the record. Time is an integer number of units. Not modelled: `__repr__`
(it raises `KeyError`, its `format` has no positional fields), `_e_metas`, `hba_file`, `initialized`, Windows, the pipes of the process.
-/
namespace PG.Cluster
open PG

/-- The signals used (cluster.py:385, 397, 409, 423; `SIG_DFL` is 0, cluster.py:461, 631). -/
inductive Sig where
  | zero | hup | term | int | kill
  deriving DecidableEq, Repr

/-- Errors of the operating system, by `errno`. -/
abbrev Errno := Nat
/-- `errno.ENOENT` (cluster.py:138). -/
def ENOENT : Errno := 2
/-- `errno.ESRCH`: no such process (cluster.py:387, 399, 411, 425, 463). -/
def ESRCH : Errno := 3
/-- `errno.EIO` (cluster.py:138). -/
def EIO : Errno := 5

/-- The kinds of error an attempt to connect may end in, as far as `ready_for_connections` tells them apart (cluster.py:546-558); the number
identifies the exception. -/
inductive Fail where
  | authSpec (n : Nat)
  | undefinedObject (n : Nat)
  | cf (n : Nat)
  | protocol (n : Nat)
  | notReady (n : Nat)
  | other (n : Nat)
  deriving DecidableEq, Repr

/-- What making a connector and connecting comes to: a connection, `ClientCannotConnectError` with the failures of the attempts, or another exception. -/
inductive Connect where
  | connected
  | cannot (failures : List Fail)
  | other (n : Nat)
  deriving DecidableEq, Repr

/-- What the world has to answer at an instant. -/
structure Instant where
  /-- The exit status of a child process, `none` while it runs. -/
  exited : Int → Option Int
  /-- The first line of `postmaster.pid`. -/
  pidfile : Except Errno Str
  /-- The outcome of `kill(pid, sig)`. -/
  signal : Int → Sig → Option Errno
  /-- The outcome of `Popen`: the pid. -/
  spawn : Except Errno Int
  /-- The text of `postgresql.conf`. -/
  conf : Except Errno Str
  connect : Connect
  now : Int
  /-- The outcome of removing the files of the cluster (`Model/ClusterDrop`). -/
  removal : Except Errno Unit
  /-- `os.path.exists(data_directory)`. -/
  found : Bool

/-- What the operating system answers at each moment; not code of the repository. -/
abbrev World := Nat → Instant

/-- The calls made to the operating system. -/
inductive Call where
  | poll (pid : Int)
  | readPid
  | kill (pid : Int) (sig : Sig)
  | spawn (command : List Str)
  | readConf
  | connect (host port : Str)
  | clock
  | sleep
  | remove
  | lookDir
  | warn
  deriving DecidableEq, Repr

/-- Exceptions. -/
inductive Exn where
  | os (e : Errno)
  | value
  | type
  | attribute
  | startup (status : Int) (command : Option (List Str))
  | notRunning
  | stillRunning
  | timeout (cause : Option (List Fail))
  | refused (x : Fail)
  | cannotConnect (failures : List Fail)
  | connecting (n : Nat)
  /-- Not an exception: the rounds granted to a loop are used up. -/
  | hang
  deriving DecidableEq, Repr

/-- A `Popen` object. -/
structure Proc where
  pid : Int
  returncode : Option Int := none
  deriving DecidableEq, Repr

/-- The installation and the arguments of `__init__` (cluster.py:169-177), and whether the version is before 8.1 (cluster.py:545). -/
structure Config where
  U : Unicode
  /-- `daemon_path` (cluster.py:123-127). -/
  daemon : Option Str
  dataDir : Str
  old : Bool

/-- The attributes of a cluster object that change, and the calls made so far. -/
structure St where
  trace : List Call := []
  daemon : Option Proc := none
  command : Option (List Str) := none
  /-- `last_exit_code`; `none` while the attribute does not exist. -/
  lastExit : Option (Option Int) := none
  deriving DecidableEq, Repr

/-- Programs. -/
def M (α : Type) : Type := World → St → Except Exn α × St

/-- A program that only returns. -/
def M.pure {α : Type} (a : α) : M α := fun _ s => (.ok a, s)

/-- What follows an outcome: an exception ends the program. -/
def M.andThen {α β : Type} (r : Except Exn α × St) (k : α → St → Except Exn β × St) : Except Exn β × St :=
  match r with
  | (.ok a, s) => k a s
  | (.error e, s) => (.error e, s)

/-- One program after another. -/
def M.bind {α β : Type} (m : M α) (k : α → M β) : M β := fun W s => M.andThen (m W s) fun a s => k a W s

instance : Monad M where
  pure := M.pure
  bind := M.bind

/-- `raise`. -/
def raise {α : Type} (e : Exn) : M α := fun _ s => (.error e, s)

/-- `try`: the outcome, as a value. -/
def attempt {α : Type} (m : M α) : M (Except Exn α) := fun W s => let r := m W s; (.ok r.1, r.2)

/-- A call of the operating system. -/
def ask {α : Type} (c : Call) (f : Instant → α) : M α := fun W s => (.ok (f (W s.trace.length)), { s with trace := s.trace ++ [c] })

/-- An `Except` of the operating system as an exception. -/
def orRaise {α : Type} : Except Errno α → M α
  | .ok a => Pure.pure a
  | .error e => raise (.os e)

/-- The attributes. -/
def getSt : M St := fun _ s => (.ok s, s)
/-- `self.daemon_process = d` (cluster.py:354, 451). -/
def setDaemon (d : Option Proc) : M Unit := fun _ s => (.ok (), { s with daemon := d })
/-- `self.daemon_command = c` (cluster.py:355). -/
def setCommand (c : Option (List Str)) : M Unit := fun _ s => (.ok (), { s with command := c })
/-- `self.last_exit_code = c` (cluster.py:629). -/
def setLastExit (c : Option Int) : M Unit := fun _ s => (.ok (), { s with lastExit := some c })

/-- `Popen.poll()`: the status, if it is known already without a call. -/
def poll (p : Proc) : M (Option Int) :=
  match p.returncode with
  | some r => pure (some r)
  | none => do
    let r ← ask (.poll p.pid) fun i => i.exited p.pid
    setDaemon (some { p with returncode := r })
    pure r

/-- cluster.py:129-139 `get_pid_from_file`: an error of the operating system other than those two ends the function without `return`. -/
def getPidFromFile : M (Option Int) := do
  match ← ask .readPid Instant.pidfile with
  | .error _ => pure none
  | .ok line => match PyInt.pyInt 10 line with
    | .ok n => pure (some n)
    | .error _ => raise .value

/-- cluster.py:141-151 `pid`. -/
def pid : M (Option Int) := do
  match ← getPidFromFile with
  | some n => pure (some n)
  | none => do
    let s ← getSt
    match s.daemon with
    | some d => pure (some d.pid)
    | none => pure none

/-- The second half of `running` (cluster.py:457-466), for a cluster without a process of its own. -/
def runningByFile : M Bool := do
  match ← getPidFromFile with
  | none => pure false
  | some n => match ← ask (.kill n .zero) fun i => i.signal n .zero with
    | none => pure true
    | some e => if e ≠ ESRCH then raise (.os e) else pure false

/-- cluster.py:439-466 `running`; the recursion is entered only without a process of its own. -/
def running : M Bool := do
  let s ← getSt
  match s.daemon with
  | some p => match ← poll p with
    | some _ => match ← getPidFromFile with
      | some _ => do
        setDaemon none
        runningByFile
      | none => pure false
    | none => pure true
  | none => runningByFile

/-- cluster.py:108-114 `state`: `'running'`, `'void'` or `'stopped'`. -/
def state : M Str := do
  if ← running then pure "running".toList
  else if ← ask .lookDir Instant.found then pure "stopped".toList
  else pure "void".toList

/-- The common body of `reload`, `stop`, `shutdown` and `kill` (cluster.py:378-427). -/
def signalled (sig : Sig) : M Unit := do
  match ← pid with
  | none => pure ()
  | some n => match ← ask (.kill n sig) fun i => i.signal n sig with
    | none => pure ()
    | some e => if e ≠ ESRCH then raise (.os e) else pure ()

/-- cluster.py:378-388. -/
def reload : M Unit := signalled .hup
/-- cluster.py:390-400. -/
def stop : M Unit := signalled .term
/-- cluster.py:402-412. -/
def shutdown : M Unit := signalled .int
/-- cluster.py:414-427. -/
def kill : M Unit := signalled .kill

/-- cluster.py:331-355 `start`; `settings` are the items of the dictionary given. `cmd` is a tuple, it has no `append`. `Popen` of a command without
program raises `TypeError`. -/
def start (C : Config) (settings : Option (List (Str × Str))) : M Unit := do
  if ← running then pure ()
  else if (settings.getD []).isEmpty then
    match C.daemon with
    | none => raise .type
    | some d => do
      let cmd := [d, "-D".toList, C.dataDir]
      let n ← orRaise (← ask (.spawn cmd) Instant.spawn)
      setDaemon (some { pid := n })
      setCommand (some cmd)
  else raise .attribute

/-- The host chosen among the addresses (cluster.py:511-519). -/
def preferred (addrs : List Str) : Str :=
  if addrs.contains "localhost".toList || addrs.contains "*".toList then "localhost".toList
  else if addrs.contains "127.0.0.1".toList then "127.0.0.1".toList
  else if addrs.contains "::1".toList then "::1".toList
  else addrs.headD []

/-- `address` on the dictionary of settings (cluster.py:508-522). -/
def addressOf (U : Unicode) (d : List (Str × Option Str)) : Option Str × Option Str :=
  let host := match (PyDict.get "listen_addresses".toList d).join with
    | some l => some (preferred (PyStr.split ',' (U.lower l)))
    | none => none
  (host, (PyDict.get "port".toList d).join)

/-- cluster.py:501-522 `address`; the file is read anew each time (configfile.py:306-319). -/
def address (C : Config) : M (Option Str × Option Str) := do
  let text ← orRaise (← ask .readConf Instant.conf)
  pure (addressOf C.U (ConfigFile.getset C.U ["listen_addresses".toList, "port".toList] text))

/-- `x or alt` for a text. -/
def orElse (x : Option Str) (alt : Str) : Str :=
  match x with
  | none => alt
  | some [] => alt
  | some s => s

/-- cluster.py:468-478 `connector`: the host and port given to `fit` (the number 5432 as text). -/
def connector (C : Config) : M (Str × Str) := do
  let a ← address C
  pure (orElse a.1 "localhost".toList, orElse a.2 "5432".toList)

/-- What `ready_for_connections` returns: `True`, `False`, the error of a server that is starting up, or the error of the connection. -/
inductive Ready where
  | yes
  | no
  | starting (n : Nat)
  | failed (failures : List Fail)
  deriving DecidableEq, Repr

/-- The loop over the failures (cluster.py:543-562). -/
def examine (old : Bool) (all : List Fail) : List Fail → M Ready
  | [] => pure (.failed all)
  | .authSpec _ :: _ => pure .yes
  | .undefinedObject _ :: l => if old then pure .yes else examine old all l
  | .cf n :: _ => raise (.refused (.cf n))
  | .protocol n :: _ => raise (.refused (.protocol n))
  | .notReady n :: _ => pure (.starting n)
  | .other _ :: l => examine old all l

/-- cluster.py:524-565 `ready_for_connections`; `fit` raises without host or port (pq3.py:3020-3021). -/
def readyForConnections (C : Config) : M Ready := do
  if ← running then
    match ← address C with
    | (some host, some port) => match ← ask (.connect host port) Instant.connect with
      | .connected => pure .yes
      | .cannot l => examine C.old l l
      | .other n => raise (.connecting n)
    | _ => raise .type
  else pure .no

/-- cluster.py:486-499 `connect`. -/
def connect (C : Config) : M Unit := do
  if ← running then
    let (host, port) ← connector C
    match ← ask (.connect host port) Instant.connect with
    | .connected => pure ()
    | .cannot l => raise (.cannotConnect l)
    | .other n => raise (.connecting n)
  else raise .notRunning

/-- What `wait_until_started` raises when the cluster is not running (cluster.py:578-594). -/
def mustRun : M Unit := do
  if ← running then pure ()
  else
    let s ← getSt
    match s.daemon with
    | some p => match p.returncode with
      | some r => raise (.startup r s.command)
      | none => pure ()
    | none => raise .notRunning

/-- What `wait_until_started` raises when the time is up (cluster.py:601-613). -/
def startTimeout : Ready → M Unit
  | .starting n => raise (.refused (.notReady n))
  | .failed l => raise (.timeout (some l))
  | _ => raise (.timeout none)

/-- The loop of `wait_until_started` (cluster.py:577-614). -/
def startedLoop (C : Config) (begin_ timeout : Int) : Nat → M Unit
  | 0 => raise .hang
  | fuel + 1 => do
    mustRun
    let r ← readyForConnections C
    let checkpoint ← ask .clock Instant.now
    if r = .yes then pure ()
    else if timeout ≤ checkpoint - begin_ then startTimeout r
    else do
      ask .sleep fun _ => ()
      startedLoop C begin_ timeout fuel

/-- cluster.py:567-614 `wait_until_started`. -/
def waitUntilStarted (C : Config) (timeout : Int) (fuel : Nat) : M Unit := do
  let begin_ ← ask .clock Instant.now
  startedLoop C begin_ timeout fuel

/-- `pg_kill(pid, 0)` with what the file says (cluster.py:631): `None` is no pid. -/
def probe : M (Option Int) := do
  match ← getPidFromFile with
  | none => raise .type
  | some n => match ← ask (.kill n .zero) fun i => i.signal n .zero with
    | none => pure none
    | some e => raise (.os e)

/-- cluster.py:627-631: the exit code. -/
def pickup : M Unit := do
  let s ← getSt
  match s.daemon with
  | some p => setLastExit (← poll p)
  | none => setLastExit (← probe)

/-- The loop of `wait_until_stopped` (cluster.py:626-637). -/
def stoppedLoop (begin_ timeout : Int) : Nat → M Unit
  | 0 => raise .hang
  | fuel + 1 => do
    if ← running then do
      pickup
      let now ← ask .clock Instant.now
      if timeout ≤ now - begin_ then raise (.timeout none)
      else do
        ask .sleep fun _ => ()
        stoppedLoop begin_ timeout fuel
    else pure ()

/-- cluster.py:616-637 `wait_until_stopped`. -/
def waitUntilStopped (timeout : Int) (fuel : Nat) : M Unit := do
  let begin_ ← ask .clock Instant.now
  stoppedLoop begin_ timeout fuel

/-- cluster.py:357-376 `restart`. -/
def restart (C : Config) (settings : Option (List (Str × Str))) (timeout : Int) (fuel : Nat) : M Unit := do
  if ← running then do
    stop
    waitUntilStopped timeout fuel
  if ← running then raise .stillRunning
  else do
    start C settings
    waitUntilStarted C timeout fuel

/-- `try: wait_until_stopped() except ClusterTimeoutError:` whether the time was up; other exceptions go on (cluster.py:311-313, 315-317). -/
def timedOut (timeout : Int) (fuel : Nat) : M Bool := do
  match ← attempt (waitUntilStopped timeout fuel) with
  | .ok _ => pure false
  | .error (.timeout _) => pure true
  | .error e => raise e

/-- cluster.py:305-329 `drop`, with `d` for the ten seconds of the waits. -/
def drop (d : Int) (fuel : Nat) : M Unit := do
  if ← running then do
    shutdown
    if ← timedOut d fuel then do
      kill
      if ← timedOut d fuel then ask .warn fun _ => ()
  orRaise (← ask .remove Instant.removal)

/-- cluster.py:187-193 `__enter__`. -/
def enter (C : Config) (d : Int) (fuel : Nat) : M Unit := do
  start C none
  waitUntilStarted C d fuel

/-- cluster.py:195-200 `__exit__`. -/
def exit_ (d : Int) (fuel : Nat) : M Unit := do
  stop
  waitUntilStopped d fuel

/-- `with cluster: body` (the outcome of the body is raised again after `__exit__`, whose own exception comes first). -/
def withCluster {α : Type} (C : Config) (d : Int) (fuel : Nat) (body : M α) : M α := do
  enter C d fuel
  match ← attempt body with
  | .ok a => do
    exit_ d fuel
    pure a
  | .error e => do
    exit_ d fuel
    raise e

end PG.Cluster
