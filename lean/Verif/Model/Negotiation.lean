import Verif.Model.Xact3
/-!
# Model of `postgresql/protocol/xact3.py`: `Closing` and `Negotiation`

`crypt` (xact3.py:22, `postgresql/resolved/crypt.py`) and the hexadecimal MD5 digest (hashlib) are parameters.
The generator `state_machine` is a state: the `yield` it stands at, or `finished` (returned or left by an exception).
Not modelled: `__repr__`, `messages_received` (its attribute `processed` does not exist), the text of the error messages.
-/
namespace PG.Negotiation
open PG PG.Element3 PG.Xact3

/-- The functions on passwords. -/
structure Crypto where
  crypt : Bytes → Bytes → Except Err Bytes
  md5hex : Bytes → Bytes

/-- Where the generator stands. -/
inductive Mach where
  | awaitAuth | awaitOk | awaitKill | awaitReady | finished
  deriving DecidableEq, Repr

/-- The state of the transaction. -/
inductive NState where | sending | receiving | complete
  deriving DecidableEq, Repr

/-- `error_message`. -/
inductive NErr where
  | server (fields : List (Bytes × Option Bytes))
  | expectation (expected received : UInt8)
  | unsupported (request : Int)
  | notOk (request : Int)
  deriving DecidableEq, Repr

/-- A `Negotiation` object. -/
structure Neg where
  startup : List (Bytes × Option Bytes)
  password : Bytes
  /-- the identity of `received[-1]` -/
  lastId : Nat
  asyncs : List Elem
  authtype : Option (Int × Bytes)
  authok : Option (Int × Bytes)
  killinfo : Option (Int × Int)
  lastReady : Option Bytes
  mach : Mach
  messages : List Elem
  state : NState
  fatal : Option Bool
  errorMessage : Option NErr
  deriving DecidableEq, Repr

/-- xact3.py:99-110 `__init__`: the generator is started; its first `yield` gives the startup message. -/
def init (startup : List (Bytes × Option Bytes)) (password : Bytes) : Neg :=
  { startup, password, lastId := 0, asyncs := [], authtype := none, authok := none, killinfo := none, lastReady := none,
    mach := .awaitAuth, messages := [.startup startup], state := .sending, fatal := none, errorMessage := none }

/-- xact3.py:120-128 `sent`. -/
def sent (n : Neg) : Neg := { n with messages := [], state := .receiving }

/-- What `machine.send(x)` does: yields messages (`None` is the empty list: nothing to send), stops, or raises. -/
inductive Sent where
  | yields (out : List Elem)
  | stop
  | raises (e : Err)
  deriving DecidableEq, Repr

/-- xact3.py:203-212: the data of the password message, by request. -/
def answer (c : Crypto) (n : Neg) (req : Int) (salt : Bytes) : Option (Except Err Bytes) :=
  if req = 3 then some (.ok n.password)
  else if req = 4 then some (c.crypt n.password salt)
  else if req = 5 then
    some (match dictGet n.startup [117, 115, 101, 114] with                       -- startup_message[b'user']
      | none => .error .keyError
      | some none => .error .typeError                                            -- bytes + None
      | some (some user) => .ok ([109, 100, 53] ++ c.md5hex (c.md5hex (n.password ++ user) ++ salt)))
  else none

/-- xact3.py:182-270 `state_machine`, resumed with message `x`. -/
def send (c : Crypto) (n : Neg) (x : Msg) : Neg × Sent :=
  match n.mach with
  | .awaitAuth =>                                                                 -- 186-221
    if x.1 ≠ 82 then
      ({ n with fatal := some true, errorMessage := some (.expectation 82 x.1), mach := .finished }, .stop)
    else match parseK .authentication x.2 with
      | .error e => ({ n with mach := .finished }, .raises e)
      | .ok (.authentication req salt) =>
        let n := { n with authtype := some (req, salt) }
        if req = 0 then ({ n with authok := some (req, salt), mach := .awaitKill }, .yields [])
        else match answer c n req salt with
          | none => ({ n with fatal := some true, errorMessage := some (.unsupported req), state := .complete, mach := .finished }, .stop)
          | some (.error e) => ({ n with mach := .finished }, .raises e)
          | some (.ok pw) => ({ n with mach := .awaitOk }, .yields [.str .password pw])
      | .ok _ => ({ n with mach := .finished }, .raises .attributeError)
  | .awaitOk =>                                                                   -- 221-236: the type is not looked at
    match parseK .authentication x.2 with
    | .error e => ({ n with mach := .finished }, .raises e)
    | .ok (.authentication req salt) =>
      let n := { n with authok := some (req, salt) }
      if req ≠ 0 then ({ n with fatal := some true, errorMessage := some (.notOk req), mach := .finished }, .stop)
      else ({ n with mach := .awaitKill }, .yields [])
    | .ok _ => ({ n with mach := .finished }, .raises .attributeError)
  | .awaitKill =>                                                                 -- 241-254
    if x.1 ≠ 75 then
      ({ n with fatal := some true, errorMessage := some (.expectation 75 x.1), mach := .finished }, .stop)
    else match parseK .killInformation x.2 with
      | .error e => ({ n with mach := .finished }, .raises e)
      | .ok (.killInformation pid key) => ({ n with killinfo := some (pid, key), mach := .awaitReady }, .yields [])
      | .ok _ => ({ n with mach := .finished }, .raises .attributeError)
  | .awaitReady =>                                                                -- 256-267
    if x.1 ≠ 90 then
      ({ n with fatal := some true, errorMessage := some (.expectation 90 x.1), mach := .finished }, .stop)
    else match parseK .ready x.2 with
      | .error e => ({ n with mach := .finished }, .raises e)
      | .ok (.ready d) => ({ n with lastReady := some d, mach := .finished }, .stop)
      | .ok _ => ({ n with mach := .finished }, .raises .attributeError)
  | .finished => (n, .stop)

/-- xact3.py:138-164: the loop of `put_messages`. -/
def loop (c : Crypto) (n : Neg) (count : Nat) : List Msg → Neg × Except Err Nat
  | [] => (n, .ok count)
  | x :: xs =>
    if x.1 = 69 then                                                              -- Error.type, 143-148
      if n.fatal = none then
        match parseK .error x.2 with
        | .error e => (n, .error e)
        | .ok (.error em) => ({ n with errorMessage := some (.server em), fatal := some true, state := .complete }, .ok (count + 1))
        | .ok _ => (n, .error .attributeError)
      else loop c n (count + 1) xs
    else match asyncKind x.1 with                                                 -- 149-152
      | some k => match parseK k x.2 with
        | .error e => (n, .error e)
        | .ok m => loop c { n with asyncs := n.asyncs ++ [m] } (count + 1) xs
      | none => match send c n x with                                             -- 153-156
        | (n, .raises e) => (n, .error e)
        | (n, .stop) => ({ n with state := .complete }, .ok (count + 1))          -- 157-160
        | (n, .yields []) => loop c n (count + 1) xs
        | (n, .yields out) => ({ n with messages := out, state := .sending }, .ok (count + 1)) -- 162-164

/-- xact3.py:130-165 `put_messages`. -/
def put (c : Crypto) (n : Neg) (b : Batch) : Neg × Except Err Nat :=
  if b.id = n.lastId then (n, .error .runtimeError)
  else loop c { n with lastId := b.id } 0 b.msgs

/-- xact3.py:57-84 `Closing`: the messages to send, and `sent`: complete and fatal. -/
def closingMessages : List Elem := [.empty .disconnect]

end PG.Negotiation
