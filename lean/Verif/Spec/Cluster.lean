import Verif.Model.Cluster
/-!
# What is asked of the control of a server

Statements about the calls made to the operating system and the answers it gave: call number `i` was answered at instant `i`.
-/
namespace PG.Spec.Cluster
open PG PG.Cluster

/-- Call number `i` was `c`, and it was made after state `s`, before state `s'`. -/
def Made (s s' : St) (i : Nat) (c : Call) : Prop := s.trace.length ≤ i ∧ s'.trace[i]? = some c

/-- At an instant the file `postmaster.pid` names a process. -/
def Names (x : Instant) (pid : Int) : Prop := ∃ line, x.pidfile = .ok line ∧ PyInt.pyInt 10 line = .ok pid

/-- At an instant there is no such file (or it cannot be read). -/
def NoFile (x : Instant) : Prop := ∃ e, x.pidfile = .error e

/-- The server was seen to be running: the process started by the object had not exited, or the process named by the file could be signalled. -/
inductive SeenRunning (W : World) (s s' : St) : Prop where
  | own (i : Nat) (p : Proc) : s.daemon = some p → Made s s' i (.poll p.pid) → (W i).exited p.pid = none → SeenRunning W s s'
  | file (i j : Nat) (pid : Int) : i < j → Made s s' i .readPid → Names (W i) pid → Made s s' j (.kill pid .zero) → (W j).signal pid .zero = none → SeenRunning W s s'

/-- The process of the object, if it has one, is known to have ended. -/
def OwnEnded (s : St) : Prop := ∀ p, s.daemon = some p → p.returncode ≠ none

/-- The server was seen not to be running: the process of the object has ended or there is none, and there is no file, or there is no such process
as the file names. -/
inductive SeenStopped (W : World) (s s' : St) : Prop where
  | noFile (i : Nat) : OwnEnded s' → Made s s' i .readPid → NoFile (W i) → SeenStopped W s s'
  | gone (i j : Nat) (pid : Int) : s'.daemon = none → i < j → Made s s' i .readPid → Names (W i) pid → Made s s' j (.kill pid .zero) →
      (W j).signal pid .zero = some ESRCH → SeenStopped W s s'

/-- What is known of the process of an object: it was started by the object, and its exit status is what the system reported. -/
def Own (W : World) (s : St) : Prop := ∀ p, s.daemon = some p →
  (∃ (i : Nat) (cmd : List Str), s.trace[i]? = some (.spawn cmd) ∧ (W i).spawn = .ok p.pid) ∧
  ∀ r, p.returncode = some r → ∃ i : Nat, s.trace[i]? = some (.poll p.pid) ∧ (W i).exited p.pid = some r

/-- An error that says nothing about the server's readiness. -/
def Indecisive (old : Bool) : Fail → Prop
  | .other _ => True
  | .undefinedObject _ => old = false
  | _ => False

/-- The first error that says something. -/
def Decisive (old : Bool) (l : List Fail) (x : Fail) : Prop :=
  ∃ before after, l = before ++ x :: after ∧ (∀ y ∈ before, Indecisive old y) ∧ ¬ Indecisive old x

/-- An error that says the server takes connections, but not this user's. -/
def UserRefused : Fail → Prop
  | .authSpec _ => True
  | .undefinedObject _ => True
  | _ => False

/-- The server answered: the connection was made, or it was refused for its user. -/
inductive Accepts (old : Bool) : Connect → Prop where
  | connected : Accepts old .connected
  | refused (l : List Fail) (x : Fail) : Decisive old l x → UserRefused x → Accepts old (.cannot l)

/-- An attempt to connect was made, and what it came to. -/
def Attempted (W : World) (s s' : St) (P : Connect → Prop) : Prop := ∃ (i : Nat) (host port : Str), Made s s' i (.connect host port) ∧ P (W i).connect

/-- The server was seen to take connections at the address of its configuration, after it was seen to be running. -/
inductive SeenReady (C : Config) (W : World) (s s' : St) : Prop where
  | mk (a b : St) (i : Nat) (host port : Str) : s.trace <+: a.trace → SeenRunning W a b → b.trace <+: s'.trace → Made b s' i (.connect host port) →
      Accepts C.old (W i).connect → SeenReady C W s s'

/-- The file of settings was read, and names no address or no port. -/
def NoAddress (C : Config) (W : World) (s s' : St) : Prop := ∃ (i : Nat) (text : Str), Made s s' i .readConf ∧ (W i).conf = .ok text ∧
  (ConfigFile.get C.U "listen_addresses".toList none text = none ∨ ConfigFile.get C.U "port".toList none text = none)

/-- At least that much time passed between two readings of the clock. -/
def Waited (W : World) (s s' : St) (timeout : Int) : Prop :=
  ∃ i j : Nat, i < j ∧ Made s s' i .clock ∧ Made s s' j .clock ∧ timeout ≤ (W j).now - (W i).now

/-- The clock passes every time for good. -/
def ClockRuns (W : World) : Prop := ∀ T : Int, ∃ n : Nat, ∀ k, n ≤ k → T ≤ (W k).now

/-- The system failed a call: the file holds no number, a signal could not be sent to a process that exists, or the settings could not be read. -/
inductive SystemFails (W : World) (s s' : St) : Exn → Prop where
  | noNumber (i : Nat) (line : Str) : Made s s' i .readPid → (W i).pidfile = .ok line → (∀ n, PyInt.pyInt 10 line ≠ .ok n) → SystemFails W s s' .value
  | noSignal (i : Nat) (pid : Int) (sig : Sig) (e : Errno) : Made s s' i (.kill pid sig) → (W i).signal pid sig = some e → e ≠ ESRCH → SystemFails W s s' (.os e)
  | noSettings (i : Nat) (e : Errno) : Made s s' i .readConf → (W i).conf = .error e → SystemFails W s s' (.os e)

/-- The reasons `ready_for_connections` may raise. -/
inductive ReadyFails (C : Config) (W : World) (s s' : St) : Exn → Prop where
  | system (e : Exn) : SystemFails W s s' e → ReadyFails C W s s' e
  | noAddress : NoAddress C W s s' → ReadyFails C W s s' .type
  | broken (n : Nat) : Attempted W s s' (fun c => c = .other n) → ReadyFails C W s s' (.connecting n)
  | configuration (n : Nat) : Attempted W s s' (fun c => ∃ l, c = .cannot l ∧ Decisive C.old l (.cf n)) → ReadyFails C W s s' (.refused (.cf n))
  | protocol (n : Nat) : Attempted W s s' (fun c => ∃ l, c = .cannot l ∧ Decisive C.old l (.protocol n)) → ReadyFails C W s s' (.refused (.protocol n))

/-- The reasons `wait_until_started` may raise. -/
inductive StartFails (C : Config) (W : World) (timeout : Int) (s s' : St) : Exn → Prop where
  /-- The process of the object ended. -/
  | ended (p : Proc) (r : Int) (i : Nat) : s'.daemon = some p → p.returncode = some r → Made s s' i .readPid → NoFile (W i) → StartFails C W timeout s s' (.startup r s'.command)
  /-- There is no process. -/
  | notRunning : s'.daemon = none → SeenStopped W s s' → StartFails C W timeout s s' .notRunning
  | ready (e : Exn) : ReadyFails C W s s' e → StartFails C W timeout s s' e
  /-- The time is up, the server says it is starting. -/
  | starting (n : Nat) : Waited W s s' timeout → Attempted W s s' (fun c => ∃ l, c = .cannot l ∧ Decisive C.old l (.notReady n)) →
      StartFails C W timeout s s' (.refused (.notReady n))
  /-- The time is up, the last attempt failed for the errors given. -/
  | timeUp (l : List Fail) : Waited W s s' timeout → Attempted W s s' (fun c => c = .cannot l ∧ ∀ x ∈ l, Indecisive C.old x) → StartFails C W timeout s s' (.timeout (some l))
  /-- The time is up, and the server was not running. -/
  | timeUpStopped : Waited W s s' timeout → SeenStopped W s s' → StartFails C W timeout s s' (.timeout none)

/-- The reasons `wait_until_stopped` may raise. -/
inductive StopFails (W : World) (timeout : Int) (s s' : St) : Exn → Prop where
  | system (e : Exn) : SystemFails W s s' e → StopFails W timeout s s' e
  | timeUp (a b : St) : s.trace <+: a.trace → SeenRunning W a b → b.trace <+: s'.trace → Waited W s s' timeout → StopFails W timeout s s' (.timeout none)
  /-- The file went away while it was looked at. -/
  | vanished (i : Nat) : s'.daemon = none → Made s s' i .readPid → NoFile (W i) → StopFails W timeout s s' .type
  /-- The process went away while it was looked at. -/
  | died (i : Nat) (pid : Int) : s'.daemon = none → Made s s' i (.kill pid .zero) → (W i).signal pid .zero = some ESRCH → StopFails W timeout s s' (.os ESRCH)

/-- The address to connect to, of the addresses the server listens on: the local host before all others, whether by name or among all, then its numbers, else
the first. -/
inductive HostFor (addrs : List Str) : Str → Prop where
  | name : "localhost".toList ∈ addrs ∨ "*".toList ∈ addrs → HostFor addrs "localhost".toList
  | ip4 : "localhost".toList ∉ addrs → "*".toList ∉ addrs → "127.0.0.1".toList ∈ addrs → HostFor addrs "127.0.0.1".toList
  | ip6 : "localhost".toList ∉ addrs → "*".toList ∉ addrs → "127.0.0.1".toList ∉ addrs → "::1".toList ∈ addrs → HostFor addrs "::1".toList
  | first (a : Str) : "localhost".toList ∉ addrs → "*".toList ∉ addrs → "127.0.0.1".toList ∉ addrs → "::1".toList ∉ addrs → addrs.head? = some a → HostFor addrs a

/-- The host and port a configuration gives. -/
def Configured (C : Config) (text : Str) (host port : Option Str) : Prop :=
  port = ConfigFile.get C.U "port".toList none text ∧
  (ConfigFile.get C.U "listen_addresses".toList none text = none → host = none) ∧
  ∀ l, ConfigFile.get C.U "listen_addresses".toList none text = some l → ∃ h, host = some h ∧ HostFor (PyStr.split ',' (C.U.lower l)) h

/-- At an instant the server runs, as far as an object with that process can tell. -/
def IsUp (x : Instant) (own : Option Proc) : Prop := (∃ p, own = some p ∧ x.exited p.pid = none) ∨ ∃ pid, Names x pid ∧ x.signal pid .zero = none

/-- At an instant the server does not run. -/
def IsDown (x : Instant) (own : Option Proc) : Prop := (∀ p, own = some p → x.exited p.pid ≠ none) ∧ (NoFile x ∨ ∃ pid, Names x pid ∧ x.signal pid .zero = some ESRCH)

/-- The process a signal is meant for: the one the file names, or else the one of the object. -/
def Target (x : Instant) (own : Option Proc) (pid : Int) : Prop := Names x pid ∨ (NoFile x ∧ ∃ p, own = some p ∧ p.pid = pid)

/-- The signals sent after `s`, before `s'`: the calls of `kill` with a signal other than 0. -/
def signalsOf (calls : List Call) : List (Int × Sig) := calls.filterMap fun
  | .kill _ .zero => none
  | .kill n g => some (n, g)
  | _ => none

/-- The processes started. -/
def spawnsOf (calls : List Call) : List (List Str) := calls.filterMap fun
  | .spawn c => some c
  | _ => none

/-- The calls made between two states. -/
def between (s s' : St) : List Call := s'.trace.drop s.trace.length

/-- The operations of a cluster object. -/
inductive Op where
  | running | state | reload | stop | shutdown | kill | ready | connect
  | start (settings : Option (List (Str × Str)))
  | waitStarted (timeout : Int) (fuel : Nat)
  | waitStopped (timeout : Int) (fuel : Nat)
  | restart (settings : Option (List (Str × Str))) (timeout : Int) (fuel : Nat)
  | drop (timeout : Int) (fuel : Nat)
  | enter (timeout : Int) (fuel : Nat)
  | exit (timeout : Int) (fuel : Nat)

/-- An operation, its value left out. -/
def perform (C : Config) : Op → M Unit
  | .running => do discard running
  | .state => do discard state
  | .reload => reload
  | .stop => stop
  | .shutdown => shutdown
  | .kill => kill
  | .ready => do discard (readyForConnections C)
  | .connect => connect C
  | .start x => start C x
  | .waitStarted t f => waitUntilStarted C t f
  | .waitStopped t f => waitUntilStopped t f
  | .restart x t f => restart C x t f
  | .drop t f => drop t f
  | .enter t f => enter C t f
  | .exit t f => exit_ t f

/-- The state after a history of operations, the latest first, on a new object (their exceptions caught by the caller). -/
def history (C : Config) (W : World) : List Op → St
  | [] => {}
  | op :: l => (perform C op W (history C W l)).2

end PG.Spec.Cluster
