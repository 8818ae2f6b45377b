import Verif.Model.PBuffer
import Verif.Model.Xact3
/-!
# Model of `postgresql/protocol/client3.py`: `Connection`

The transaction object is a parameter (`Ops`): the connection only uses its `state`, `messages`, the callable of the state
and `fatal`.  The socket is a pair of queues: what the coming `send` and `recv` calls will do.  An empty queue means the call
blocks for ever (`blocked`).  What reached the server (`wire`), what came from it (`received`), the
calls of `write_messages` (`log`) and the messages taken by transactions (`taken`) are recorded.
A sequence of messages to send is an object: its identity (`is`) and its items, which do not change while it is referenced.
A batch of received messages is a new object for each `read()` and each slice (client3.py:298, 421, 457).

Exceptions of socket operations (python/socket.py:21-48): `tryAgain`: an `OSError` whose errno is EAGAIN, EINTR, EWOULDBLOCK or
ETIMEDOUT; `fatal`: another `OSError`, with a message; `unclear`: an `OSError` without message; `other`: an `Exception` that is
not an `OSError`; `interrupt`: not an `Exception` (`KeyboardInterrupt`), raised by the socket call.

Not modelled: tracing, `interrupt()`, `key`, `backend_id`, the texts of the client's errors,
interrupts between two Python statements.
-/
namespace PG.Client3
open PG PG.Element3 PG.Xact3

/-- The identity of a sequence of messages: the empty tuple, the messages of the connection's `Closing`, the commands of a
transaction, the `CopyDoneSequence` and `CopyFailSequence` made when a transaction met a COPY at some command, an object of the
user. -/
inductive OId where
  | unit
  | closing
  | commands (xact : Nat)
  | copyDone (xact : Nat) (offset : Nat)
  | copyFail (xact : Nat) (offset : Nat)
  | user (n : Nat)
  deriving DecidableEq, Repr

/-- A sequence of messages to send. -/
structure Obj where
  id : OId
  items : List Item
  deriving DecidableEq, Repr

/-- What the first element of `x.state` is (xact3.py:27-29). -/
inductive Dir where | sending | receiving | complete
  deriving DecidableEq, Repr

/-- What the connection uses of a transaction. -/
structure Ops (X : Type) where
  dir : X → Dir
  /-- `x.messages` -/
  messages : X → Obj
  /-- `sent x y`: the callable `x.state[1]`, taken from the object when it was as in `x`, is called when it is as in `y` -/
  sent : X → X → X
  /-- `put x y batch`: the same for the receiving callable -/
  put : X → X → Batch → X × Except Err Nat
  /-- `x.fatal = True; x.state = Complete` and an error message -/
  fail : X → X
  /-- `getattr(x, 'fatal', None) is True` -/
  fatal : X → Bool
  /-- `x.last_ready`; `none`: there is no such attribute -/
  lastReady : X → Option Bytes
  /-- `xact.Instruction(commands)`, with the identity of its `messages` -/
  instruction : Nat → List Elem → X

/-- Exceptions of socket calls. -/
inductive SockErr where | tryAgain | fatal | unclear | other | interrupt
  deriving DecidableEq, Repr

/-- What a call of `socket.send` does: accept `n` bytes of the data (at most all), or raise. -/
inductive SendEv where
  | sent (n : Nat)
  | err (k : SockErr)
  deriving DecidableEq, Repr

/-- What a call of `socket.recv` does: return data (empty: the peer closed), or raise. -/
inductive RecvEv where
  | data (d : Bytes)
  | err (k : SockErr)
  deriving DecidableEq, Repr

/-- Exceptions leaving the methods. -/
inductive CErr where
  | sock (k : SockErr)
  | py (e : Err)
  deriving DecidableEq, Repr

/-- How a method ends. -/
inductive Res (α : Type) where
  | ret (a : α)
  | raised (e : CErr)
  | blocked
  deriving DecidableEq, Repr

/-- client3.py:526-558 `__init__`: the attributes of a connection. -/
structure Conn (X : Type) where
  xact : Option X
  garbageCursors : List Bytes := []
  garbageStatements : List Bytes := []
  stream : PBuffer.Stream := {}
  read : Batch := ⟨0, []⟩
  readData : Option Bytes := none
  messageData : Bytes := []
  writing : Option Obj := none
  written : Option Obj := none
  /-- `self.state`: the transaction status the server reported last -/
  state : Bytes := []
  /-- identity of the next batch object -/
  nextId : Nat := 1
  sends : List SendEv := []
  recvs : List RecvEv := []
  wire : Bytes := []
  received : Bytes := []
  /-- a record of the calls of `write_messages` -/
  log : List Obj := []
  /-- a record of the messages the transactions said to have taken -/
  taken : List Msg := []
  /-- a record of the identifiers handed to the garbage lists -/
  trashedCursors : List Bytes := []
  trashedStatements : List Bytes := []
  /-- a record of the closing transactions made by `take_out_trash` -/
  closings : List (List Elem) := []

variable {X : Type}

/-- client3.py:309-315: the loop of `send_message_data`: (remaining events, unsent data, sent data, outcome). -/
def sendLoop : List SendEv → Bytes → Bytes → List SendEv × Bytes × Bytes × Res Unit
  | evs, [], w => (evs, [], w, .ret ())
  | [], x :: xs, w => ([], x :: xs, w, .blocked)
  | .sent n :: evs, x :: xs, w => sendLoop evs ((x :: xs).drop n) (w ++ (x :: xs).take n)
  | .err k :: evs, x :: xs, w => (evs, x :: xs, w, .raised (.sock k))

/-- `self.xact.state = Complete; self.xact.fatal = True` and so on. -/
def failXact (o : Ops X) (c : Conn X) : Conn X := { c with xact := c.xact.map o.fail }

/-- client3.py:301-332 `send_message_data`. -/
def sendMessageData (o : Ops X) (c : Conn X) : Conn X × Res Bool :=
  match sendLoop c.sends c.messageData c.wire with
  | (evs, d, w, r) =>
    let c := { c with sends := evs, messageData := d, wire := w }
    match r with
    | .ret () => (c, .ret true)
    | .blocked => (c, .blocked)
    | .raised (.sock .fatal) => (failXact o c, .ret false)
    | .raised e => (c, .raised e)

/-- client3.py:340-342: `if self.writing is not self.written: ...`. -/
def catWriting (c : Conn X) : Except Err (Conn X) :=
  match c.writing with
  | none => .ok c
  | some w =>
    if c.written.map (·.id) = some w.id then .ok c
    else match catMessages w.items with
      | .error e => .error e
      | .ok d => .ok { c with messageData := c.messageData ++ d, written := some w }

/-- client3.py:334-348 `standard_write_messages`. -/
def writeMessages (o : Ops X) (c : Conn X) (m : Obj) : Conn X × Res Bool :=
  let c := { c with log := c.log ++ [m] }
  match catWriting c with
  | .error e => (c, .raised (.py e))
  | .ok c =>
    if c.writing.map (·.id) = some m.id then sendMessageData o c
    else
      let c := { c with writing := some m }
      match catMessages m.items with
      | .error e => (c, .raised (.py e))
      | .ok d => sendMessageData o { c with messageData := c.messageData ++ d, written := some m }

/-- client3.py:245-284: the loop of `read_into` once `read_data` is `None`. -/
def readIntoLoop (o : Ops X) (c : Conn X) : List RecvEv → Conn X × Res Bool
  | [] => match PBuffer.hasMessage c.stream with
    | .error e => ({ c with recvs := [] }, .raised (.py e))
    | .ok true => ({ c with recvs := [] }, .ret true)
    | .ok false => ({ c with recvs := [] }, .blocked)
  | ev :: evs => match PBuffer.hasMessage c.stream with
    | .error e => ({ c with recvs := ev :: evs }, .raised (.py e))
    | .ok true => ({ c with recvs := ev :: evs }, .ret true)
    | .ok false => match ev with
      | .err .fatal => (failXact o { c with recvs := evs }, .ret false)                 -- 255-265
      | .err k => ({ c with recvs := evs }, .raised (.sock k))                          -- 266-269
      | .data [] => (failXact o { c with recvs := evs, readData := some [] }, .ret false)     -- 273-277
      | .data (x :: xs) =>                                                              -- 280
        readIntoLoop o { c with stream := PBuffer.write c.stream (x :: xs), received := c.received ++ (x :: xs) } evs

/-- client3.py:235-281 `read_into`. -/
def readInto (o : Ops X) (c : Conn X) : Conn X × Res Bool :=
  match PBuffer.hasMessage c.stream with
  | .error e => (c, .raised (.py e))
  | .ok true => (c, .ret true)
  | .ok false => match c.readData with
    | some d => readIntoLoop o { c with stream := PBuffer.write c.stream d, readData := none } c.recvs
    | none => readIntoLoop o c c.recvs

/-- client3.py:283-294 `standard_read_messages`. -/
def readMessages (o : Ops X) (c : Conn X) : Conn X × Res Bool :=
  if c.read.msgs ≠ [] then (c, .ret true)
  else match readInto o c with
    | (c, .ret r) => match PBuffer.read c.stream with
      | (.error e, s) => ({ c with stream := s }, .raised (.py e))
      | (.ok ms, s) => ({ c with stream := s, read := ⟨c.nextId, ms⟩, nextId := c.nextId + 1 }, .ret r)
    | (c, .raised e) => (c, .raised e)
    | (c, .blocked) => (c, .blocked)

/-- `self.read = self.read[op(self.read):]` (client3.py:421, 457). -/
def putRead (o : Ops X) (c : Conn X) (op x : X) : Conn X × Res Unit :=
  match o.put op x c.read with
  | (x, .error e) => ({ c with xact := some x }, .raised (.py e))
  | (x, .ok n) => ({ c with xact := some x, taken := c.taken ++ c.read.msgs.take n, read := ⟨c.nextId, c.read.msgs.drop n⟩, nextId := c.nextId + 1 }, .ret ())

/-- How `complete()` goes on after one pass through one of its inner loops. -/
inductive Pass where | again | done | raised (e : CErr) | blocked
  deriving DecidableEq, Repr

/-- client3.py:418, 482: `self.state = getattr(x, 'last_ready', self.state)`. -/
def noteReady (o : Ops X) (c : Conn X) (x : X) : Conn X := { c with state := (o.lastReady x).getD c.state }

/-- client3.py:466-481: the `except` clauses of `complete`. -/
def handler (o : Ops X) (c : Conn X) : CErr → Conn X × Pass
  | .sock .tryAgain => (c, .again)
  | .sock .fatal => (c, .raised (.sock .fatal))           -- an OSError that is not to be tried again: raised
  | .sock .unclear => (c, .raised (.sock .unclear))
  | .sock .interrupt => (c, .raised (.sock .interrupt))   -- not an Exception
  | .sock .other => (failXact o { c with state := [] }, .done)
  | .py _ => (failXact o { c with state := [] }, .done)

/-- client3.py:451-481: one pass of the loops of `complete()` for transaction `x`. -/
def completePass (o : Ops X) (c : Conn X) (x : X) : Conn X × Pass :=
  match o.dir x with
  | .complete => (noteReady o c x, .done)
  | .receiving => match readMessages o c with
    | (c, .ret true) => match putRead o c x x with
      | (c, .ret ()) => (c, .again)
      | (c, .raised e) => handler o c e
      | (c, .blocked) => (c, .blocked)
    | (c, .ret false) => (c, .again)
    | (c, .raised e) => handler o c e
    | (c, .blocked) => (c, .blocked)
  | .sending => match writeMessages o c (o.messages x) with
    | (c, .ret true) => ({ c with xact := some (o.sent x x) }, .again)
    | (c, .ret false) => (c, .again)
    | (c, .raised e) => handler o c e
    | (c, .blocked) => (c, .blocked)

/-- client3.py:482-485: a transaction is removed unless it failed fatally. -/
def settle (o : Ops X) (c : Conn X) : Conn X :=
  match c.xact with
  | none => c
  | some x => if o.fatal x then c else { c with xact := none }

/-- client3.py:438-485 `complete()`, cut off after `fuel` passes. -/
def complete (o : Ops X) : Nat → Conn X → Conn X × Res Unit
  | 0, c => (c, .blocked)
  | fuel + 1, c => match c.xact with
    | none => (c, .raised (.py .attributeError))
    | some x => match completePass o c x with
      | (c, .again) => complete o fuel c
      | (c, .done) => (settle o c, .ret ())
      | (c, .raised e) => (c, .raised e)
      | (c, .blocked) => (c, .blocked)

/-- client3.py:422-431: the `except` clause of `step` for an exception of the body. -/
def stepHandler (c : Conn X) : CErr → Conn X × Res Unit
  | .sock .tryAgain => (c, .ret ())
  | e => (c, .raised e)

/-- client3.py:432-435: the end of `step`. -/
def stepEnd (o : Ops X) (c : Conn X) : Conn X :=
  match c.xact with
  | none => c
  | some x => if o.dir x = .complete ∧ o.fatal x = false then { c with xact := none } else c

/-- client3.py:404-435 `step()`.  The result of `write_messages` and `read_messages` is not looked at. -/
def step (o : Ops X) (c : Conn X) : Conn X × Res Unit :=
  match c.xact with
  | none => (c, .raised (.py .attributeError))
  | some x => match o.dir x with
    | .complete => (c, .raised (.py .runtimeError))
    | .sending => match writeMessages o c (o.messages x) with
      | (c, .ret _) => (stepEnd o { c with xact := c.xact.map (o.sent x) }, .ret ())
      | (c, .raised e) => stepHandler c e
      | (c, .blocked) => (c, .blocked)
    | .receiving => match readMessages o c with
      | (c, .ret _) => match putRead o c x (c.xact.getD x) with
        | (c, .ret ()) => (stepEnd o (noteReady o c (c.xact.getD x)), .ret ())
        | (c, .raised e) => stepHandler c e
        | (c, .blocked) => (c, .blocked)
      | (c, .raised e) => stepHandler c e
      | (c, .blocked) => (c, .blocked)

/-- A `for x in garbage` loop while finalizers append to the list: `fin` is what they append before each step of the
iterator (client3.py:371-377, 491-496).  Returns what the loop saw and the list afterwards. -/
def iterate (garbage : List Bytes) (i : Nat) : List (List Bytes) → List Bytes × List Bytes
  | [] => (garbage.drop i, garbage)
  | f :: fs =>
    match (garbage ++ f)[i]? with
    | none => ([], garbage ++ f)
    | some x => match iterate (garbage ++ f) (i + 1) fs with
      | (l, g) => (x :: l, g)

/-- What finalizers append during `take_out_trash`: before each step of the loop over the cursors, over the statements, and
between the loops and the deletions. -/
structure Finalizers where
  cursors : List (List Bytes) := []
  statements : List (List Bytes) := []
  lateCursors : List Bytes := []
  lateStatements : List Bytes := []

/-- client3.py:365-383 `take_out_trash`, up to `self.complete()`: the closing commands become the transaction. -/
def takeOutTrash (o : Ops X) (f : Finalizers) (c : Conn X) : Conn X :=
  match iterate c.garbageCursors 0 f.cursors with
  | (cs, gc) => match iterate c.garbageStatements 0 f.statements with
    | (ss, gs) =>
      let xm := cs.map (Elem.str .closePortal) ++ ss.map (Elem.str .closeStatement) ++ [.empty .synchronize]
      { c with xact := some (o.instruction c.nextId xm), nextId := c.nextId + 1,
               garbageCursors := (gc ++ f.lateCursors).drop cs.length,
               garbageStatements := (gs ++ f.lateStatements).drop ss.length,
               trashedCursors := c.trashedCursors ++ (gc ++ f.lateCursors).drop c.garbageCursors.length,
               trashedStatements := c.trashedStatements ++ (gs ++ f.lateStatements).drop c.garbageStatements.length,
               closings := c.closings ++ [xm] }

/-- client3.py:385-402 `push(x)`; `fuel` cuts off the calls of `complete()`. -/
def push (o : Ops X) (f : Finalizers) (fuel : Nat) (c : Conn X) (x : X) : Conn X × Res Unit :=
  if o.dir x = .complete then (c, .ret ())
  else
    match (if c.xact.isSome then complete o fuel c else (c, .ret ())) with
    | (c, .raised e) => (c, .raised e)
    | (c, .blocked) => (c, .blocked)
    | (c, .ret ()) =>
      if c.xact.isSome then (c, .ret ())
      else
        match (if c.garbageStatements ≠ [] ∨ c.garbageCursors ≠ [] then complete o fuel (takeOutTrash o f c) else (c, .ret ())) with
        | (c, .raised e) => (c, .raised e)
        | (c, .blocked) => (c, .blocked)
        | (c, .ret ()) =>
          if c.xact.isSome then (c, .ret ())
          else step o { c with xact := some x }

/-- client3.py:97-107 `synchronize()`. -/
def synchronize (o : Ops X) (fuel : Nat) (c : Conn X) : Conn X × Res Unit :=
  match (if c.xact.isSome then complete o fuel c else (c, .ret ())) with
  | (c, .ret ()) =>
    complete o fuel { c with xact := some (o.instruction c.nextId [.empty .synchronize]), nextId := c.nextId + 1 }
  | r => r

/-- client3.py:491-496 `trash_cursor` (its effect on the garbage). -/
def trashCursor (c : Conn X) (i : Bytes) : Conn X := 
  { c with garbageCursors := c.garbageCursors ++ [i], trashedCursors := c.trashedCursors ++ [i] }
/-- client3.py:502-507 `trash_statement`. -/
def trashStatement (c : Conn X) (i : Bytes) : Conn X := 
  { c with garbageStatements := c.garbageStatements ++ [i], trashedStatements := c.trashedStatements ++ [i] }

/-! ## The transaction is an `Instruction` -/

/-- An `Instruction` with the identities of the objects it sends: its own, and that of the user's COPY data. -/
structure IX where
  inst : Inst
  oid : Nat
  user : Nat := 0

/-- The identity of `x.messages`. -/
def IX.oidOf (x : IX) : OId :=
  match x.inst.messages with
  | .commands => .commands x.oid
  | .empty => .unit
  | .copyDone => .copyDone x.oid x.inst.last2.offset
  | .copyFail => .copyFail x.oid x.inst.last2.offset
  | .data _ => .user x.user

/-- xact3.py:687-716: the callable of sending state `st`. -/
def sentAs (st : XState) (s : Inst) : Inst :=
  match st with
  | .sending .standardSent => { s with messages := .empty, state := .receiving .standardPut }
  | .sending .sentFromStdin =>
    if s.messages = .copyDone ∨ s.messages = .copyFail then { s with messages := .empty, state := .receiving .standardPut }
    else { s with messages := .copyFail }
  | _ => s

/-- The callable of receiving state `st`. -/
def putAs (st : XState) (s : Inst) (b : Batch) : Inst × Except Err Nat :=
  match st with
  | .receiving .standardPut => standardPut s b
  | .receiving .putCopydata => putCopydata s b
  | .receiving .putTupledata => putTupledata s b
  | _ => (s, .error .runtimeError)

/-- `x.state[0]`. -/
def dirOf (s : Inst) : Dir :=
  match s.state with
  | .sending _ => .sending
  | .receiving _ => .receiving
  | .complete => .complete

/-- An `Instruction` as the connection's transaction.  The commands made by the connection itself (closing, synchronizing)
always have a hook, so `Instruction.__init__` does not raise.  `fail` leaves an error message made by the client, whose text is
not modelled: `errorMessage` is `none`. -/
def instOps : Ops IX where
  dir x := dirOf x.inst
  messages x := ⟨x.oidOf, outItems x.inst⟩
  sent op x := { x with inst := sentAs op.inst.state x.inst }
  put op x b := match putAs op.inst.state x.inst b with | (i, r) => ({ x with inst := i }, r)
  fail x := { x with inst := { x.inst with state := .complete, fatal := some true, errorMessage := none } }
  fatal x := x.inst.fatal == some true
  lastReady x := x.inst.lastReady
  instruction n cmds := { oid := n, inst :=
    { commands := cmds, completed := [], lastId := 0, last1 := ⟨0, 0⟩, last2 := ⟨0, 0⟩, messages := .commands,
      copyTail := [], state := .sending .standardSent, fatal := none, errorMessage := none, lastReady := none,
      asyncs := [], hookCalls := [] } }

end PG.Client3
