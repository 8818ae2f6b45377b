import Verif.Model.Client3
/-!
# Model of the driver's connection object: opening, using and closing it (`driver/pq3.py` `Connection`)

The protocol connection is the one of `Client3`; its transactions are `Instruction`s and, when closing, a `Closing`
(xact3.py:57-84).  What a negotiation does is C14 and C16; here `connect` only sees how it ended.

A socket that is `None` (after `close()`): the methods `send` and `recv` are looked up in `None`, which raises an
`AttributeError`; one such failure each is all a call can meet, since the first one ends it.  Simplification: messages that are
already in the buffer are still read then.

Not modelled: the texts of the errors made by the client (`none`), `__cause__`, `creator`, tracing, `security`, `fileno`,
`clone`, `__enter__`, and what `_establish` reads from the server after the negotiation.
-/
namespace PG.Lifecycle
open PG PG.Element3 PG.Xact3 PG.Client3

/-- A transaction of a connection: an `Instruction`, or the `Closing`; it is `done` when `sent` was called or the connection
marked it as failed.  The identity of its messages is a constant: between two `Closing`s of a connection there is always another
transaction (only `synchronize()` replaces one), so that two of them are never compared. -/
inductive Y where
  | inst (x : IX)
  | closing (done : Bool)

/-- xact3.py:57-84 `Closing`, otherwise the `Instruction`. -/
def dbOps : Ops Y where
  dir | .inst x => instOps.dir x
      | .closing done => if done then .complete else .sending
  messages | .inst x => instOps.messages x
           | .closing done => if done then ⟨.unit, []⟩ else ⟨.closing, [.msg (.empty .disconnect)]⟩     -- 83
  sent | .inst op, .inst x => .inst (instOps.sent op x)
       | .inst _, .closing d => .closing d
       | .closing _, .inst x => .inst x
       | .closing _, .closing _ => .closing true                                                  -- 74-80
  put | .inst op, .inst x, b => match instOps.put op x b with | (x, r) => (.inst x, r)
      | _, y, _ => (y, .error .runtimeError)
  fail | .inst x => .inst (instOps.fail x)
       | .closing _ => .closing true
  fatal | .inst x => instOps.fatal x
        | .closing done => done
  lastReady | .inst x => instOps.lastReady x
            | .closing _ => none
  instruction n cmds := .inst (instOps.instruction n cmds)

/-- `x.fatal`: `None`, `False` (the transaction failed) or `True` (the connection is lost). -/
def fatalOf : Y → Option Bool
  | .inst x => x.inst.fatal
  | .closing done => if done then some true else none

/-- `x.error_message`; `none`: it was made by the client. -/
def errorOf : Y → Option ErrMsg
  | .inst x => x.inst.errorMessage
  | .closing _ => none

/-- `self.pq` of the driver's connection: no such attribute, `None`, or a protocol connection. -/
inductive Pq where
  | absent
  | none
  | conn (c : Conn Y)

/-- The driver's connection object. -/
structure Db where
  pq : Pq
  /-- `self.pq.socket is not None` -/
  socket : Bool := true
  /-- `hasattr(self, 'failures')` -/
  failures : Bool := false
  /-- `hasattr(self, '_controller')` -/
  controller : Bool := false

/-- How a call ends. -/
inductive Outcome where
  | ok
  /-- the error of the transaction is raised (`typio.raise_error(x.error_message)`): `x.fatal` and the message -/
  | dbError (fatal : Bool) (msg : Option ErrMsg)
  /-- any other exception -/
  | raised (e : CErr)
  | blocked
  deriving DecidableEq, Repr

/-- Without a socket each `send` and `recv` raises. -/
def plug (socket : Bool) (c : Conn Y) : Conn Y := if socket then c else { c with sends := [.err .other], recvs := [.err .other] }

/-- client3.py:438-481: `complete()` without its last statement, which may remove the transaction. -/
def drive {X : Type} (o : Ops X) : Nat → Conn X → Conn X × Res Unit
  | 0, c => (c, .blocked)
  | fuel + 1, c => match c.xact with
    | none => (c, .raised (.py .attributeError))
    | some x => match completePass o c x with
      | (c, .again) => drive o fuel c
      | (c, .done) => (c, .ret ())
      | (c, .raised e) => (c, .raised e)
      | (c, .blocked) => (c, .blocked)

/-- The outcome of a method of the protocol connection. -/
def outOf : Res Unit → Outcome
  | .ret () => .ok
  | .raised e => .raised e
  | .blocked => .blocked

/-- pq3.py:2365-2371 `closed`. -/
def closed (db : Db) : Bool :=
  match db.pq with
  | .absent => true
  | .none => true
  | .conn c => match c.xact with
    | some x => fatalOf x = some true
    | none => false

/-- pq3.py:2603-2611 `_pq_push(xact, controller)`. -/
def pqPush (f : Finalizers) (fuel : Nat) (db : Db) (y : Y) : Db × Outcome :=
  match db.pq with
  | .conn c =>
    let c := plug db.socket c
    let go (db : Db) (c : Conn Y) : Db × Outcome :=
      match push dbOps f fuel c y with
      | (c, r) => ({ db with pq := .conn c, controller := true }, outOf r)
    match c.xact with
    | none => go db c
    | some _ => match drive dbOps fuel c with
      | (d, .ret ()) =>
        let e := settle dbOps d
        match d.xact with
        | none => go db e
        | some x => match fatalOf x with
          | some b => ({ db with pq := .conn e }, .dbError b (errorOf x))                  -- 2607-2608
          | none => go db e
      | (d, r) => ({ db with pq := .conn d }, outOf r)
  | _ => (db, .raised (.py .attributeError))

/-- `_pq_push(xact.Instruction(cmds), self)` (pq3.py:1007, 1110-1115, 2311-2316 and others): the commands are a new object. -/
def pqStart (f : Finalizers) (fuel : Nat) (db : Db) (cmds : List Elem) : Db × Outcome :=
  match db.pq with
  | .conn c => match Xact3.init cmds with
    | .error e => (db, .raised (.py e))
    | .ok i => pqPush f fuel { db with pq := .conn { c with nextId := c.nextId + 1 } } (.inst { inst := i, oid := c.nextId })
  | _ => (db, .raised (.py .attributeError))

/-- pq3.py:2614-2623 `_pq_complete()`. -/
def pqComplete (fuel : Nat) (db : Db) : Db × Outcome :=
  match db.pq with
  | .conn c =>
    let c := plug db.socket c
    match c.xact with
    | none => (db, .ok)
    | some _ => match drive dbOps fuel c with
      | (d, .ret ()) =>
        let e := settle dbOps d
        match d.xact.bind fatalOf, d.xact.bind errorOf with
        | some b, m => ({ db with pq := .conn e }, .dbError b m)                           -- 2621-2622
        | none, _ =>
          if db.controller then ({ db with pq := .conn e, controller := false }, .ok)      -- 2623
          else ({ db with pq := .conn e }, .raised (.py .attributeError))
      | (d, r) => ({ db with pq := .conn d }, outOf r)
  | _ => (db, .raised (.py .attributeError))

/-- client3.py:404-431: `step()` without its last statement, which may remove the transaction; the `Bool` says whether that
statement is reached. -/
def stepRaw {X : Type} (o : Ops X) (c : Conn X) : Conn X × Bool × Res Unit :=
  match c.xact with
  | none => (c, false, .raised (.py .attributeError))
  | some x => match o.dir x with
    | .complete => (c, false, .raised (.py .runtimeError))
    | .sending => match writeMessages o c (o.messages x) with
      | (c, .ret _) => ({ c with xact := c.xact.map (o.sent x) }, true, .ret ())
      | (c, .raised e) => match stepHandler c e with | (c, r) => (c, false, r)
      | (c, .blocked) => (c, false, .blocked)
    | .receiving => match readMessages o c with
      | (c, .ret _) => match putRead o c x (c.xact.getD x) with
        | (c, .ret ()) => (noteReady o c (c.xact.getD x), true, .ret ())
        | (c, .raised e) => match stepHandler c e with | (c, r) => (c, false, r)
        | (c, .blocked) => (c, false, .blocked)
      | (c, .raised e) => match stepHandler c e with | (c, r) => (c, false, r)
      | (c, .blocked) => (c, false, .blocked)

/-- pq3.py:2626-2637 `_pq_step()`. -/
def pqStep (db : Db) : Db × Outcome :=
  match db.pq with
  | .conn c =>
    let c := plug db.socket c
    match c.xact with
    | none => (db, .ok)
    | some _ => match stepRaw dbOps c with
      | (d, fin, .ret ()) =>
        let e := if fin then stepEnd dbOps d else d
        match d.xact with
        | some x =>
          if dbOps.dir x = .complete then
            match fatalOf x with
            | some b => ({ db with pq := .conn e }, .dbError b (errorOf x))                -- 2634-2635
            | none =>
              if db.controller then ({ db with pq := .conn e, controller := false }, .ok)  -- 2636
              else ({ db with pq := .conn e }, .raised (.py .attributeError))
          else ({ db with pq := .conn e }, .ok)
        | none => ({ db with pq := .conn e }, .ok)
      | (d, _, r) => ({ db with pq := .conn d }, outOf r)
  | _ => (db, .raised (.py .attributeError))

/-- `self.pq.synchronize()` (client3.py:97-107), called by the loading of rows (pq3.py:1779, 1826). -/
def pqSynchronize (fuel : Nat) (db : Db) : Db × Outcome :=
  match db.pq with
  | .conn c => match synchronize dbOps fuel (plug db.socket c) with
    | (c, r) => ({ db with pq := .conn c }, outOf r)
  | _ => (db, .raised (.py .attributeError))

/-- pq3.py:1769, 1777: the current transaction is given something to send, while it is sending: a list of the user with
identity `n`, or its `CopyDoneSequence`. -/
def pqGive (m : Option (Nat × List Item)) (db : Db) : Db :=
  match db.pq with
  | .conn c => match c.xact with
    | some (.inst x) =>
      if dirOf x.inst = .sending then
        match m with
        | some (n, l) => { db with pq := .conn { c with xact := some (.inst { x with inst := { x.inst with messages := .data l }, user := n }) } }
        | none => { db with pq := .conn { c with xact := some (.inst { x with inst := { x.inst with messages := .copyDone } }) } }
      else db
    | _ => db
  | _ => db

/-- `self.pq.complete()`. -/
def plainComplete (fuel : Nat) (c : Conn Y) : Conn Y × Res Unit := complete dbOps fuel c

/-- pq3.py:2388-2390: after pushing the `Closing`: complete it, twice if there is a socket (there is). -/
def finishClosing (fuel : Nat) (c : Conn Y) : Conn Y × Res Unit :=
  match plainComplete fuel c with
  | (c, .ret ()) => plainComplete fuel c
  | r => r

/-- pq3.py:2381-2384: finish the running transaction unless it failed fatally. -/
def closeFirst (fuel : Nat) (c : Conn Y) : Conn Y × Res Unit :=
  match c.xact with
  | some x => if fatalOf x ≠ some true then plainComplete fuel c else (c, .ret ())
  | none => (c, .ret ())

/-- pq3.py:2385-2390: unless a failed transaction is left, push and complete a `Closing`. -/
def closeSecond (f : Finalizers) (fuel : Nat) (c : Conn Y) : Conn Y × Res Unit :=
  match c.xact with
  | none => match push dbOps f fuel c (.closing false) with
    | (c, .ret ()) => finishClosing fuel c
    | r => r
  | some _ => (c, .ret ())

/-- pq3.py:2373-2395 `close()`. -/
def close (f : Finalizers) (fuel : Nat) (db : Db) : Db × Outcome :=
  match db.pq with
  | .conn c =>
    if db.socket = false then (db, .ok)                                                     -- 2377-2379
    else match closeFirst fuel c with
      | (c, .ret ()) => match closeSecond f fuel c with
        | (c, .ret ()) => ({ db with pq := .conn c, socket := false }, .ok)                 -- 2393-2395
        | (c, r) => ({ db with pq := .conn c }, outOf r)
      | (c, r) => ({ db with pq := .conn c }, outOf r)
  | _ => (db, .ok)

/-- How `_establish` ended (C14, C16): connected (the negotiation is done and was removed), no server reached (`failures` is
set), or another exception before there was a connection. -/
inductive Established where
  | connected (c : Conn Y)
  | cannotConnect
  | other (e : Err)

/-- pq3.py:2424-2444 `connect()`, 2446-2566 `_establish()`. -/
def connect (r : Established) (db : Db) : Db × Outcome :=
  if closed db = false then (db, .ok)                                                       -- 2428-2430
  else match db.pq with
    | .conn c => match c.xact with
      | some x => (db, .dbError ((fatalOf x).getD false) (errorOf x))                       -- 2432-2435
      | none => (db, .raised (.py .attributeError))
    | .none => (db, .raised (.py .attributeError))                                          -- 2434: `None.xact`
    | .absent => match r with
      | .connected c => ({ db with pq := .conn { c with xact := none }, socket := true }, .ok)
      | .cannotConnect => ({ db with pq := .none, failures := true }, .dbError true none)   -- 2448, 2560-2564
      | .other e => ({ db with pq := .none }, .raised (.py e))

/-- pq3.py:2397-2412 `state`. -/
def state (db : Db) : String :=
  match db.pq with
  | .absent => "initialized"
  | .none => if db.failures then "failed" else "closed"
  | .conn c =>
    if db.failures then "failed"
    else if closed db then "closed"
    else match c.xact with
      | none => if c.state = [69] then "failed block" else if c.state ≠ [73] then "idle in block" else "idle"
      | some _ => "busy"

end PG.Lifecycle
