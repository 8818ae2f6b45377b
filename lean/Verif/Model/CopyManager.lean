import Verif.Model.CopyMan
import Verif.Model.Element3
/-!
# Model of `postgresql/copyman.py`: receivers, the transformer and the `CopyManager`

The producer is a script of what its `__next__` does; the receivers' sockets and callables are scripts too.  The connection level
parts of `StatementProducer` and `StatementReceiver` (confiscating the connection's buffers, the COPY transaction) are not in this
model: entering and leaving may succeed or raise, as the parameters say.
-/
namespace PG.CopyMan
open PG PG.Element3

/-- copyman.py:83-89: the protocols. -/
inductive Proto where | pq | chunks | null
  deriving DecidableEq, Repr

/-- The data that goes through: protocol bytes, a list of rows, or None. -/
inductive Data where | bytes (b : Bytes) | rows (l : List Bytes) | nothing
  deriving DecidableEq, Repr

/-- What one `send` does: take some bytes or raise. -/
inductive Send where | took (n : Nat) | fault
  deriving DecidableEq, Repr

/-- A receiver: `ProtocolReceiver` (543-563) for `pq`, `CallReceiver` (637-655) for `chunks`, `NullReceiver` (531-541) for `null`. `sends`
and `calls` say what its `send` and its callable do (`true`: raise; when the script is over, everything goes well); `sent` and `got` are what
they took.  `active`: it is in the manager's set.  The last two fields say whether entering and leaving it raise. -/
structure Rcv where
  proto : Proto
  view : Bytes := []
  lines : Option (List Bytes) := none
  sends : List Send := []
  calls : List Bool := []
  sent : Bytes := []
  got : List (List Bytes) := []
  active : Bool := true
  enterRaises : Bool := false
  exitRaises : Bool := false
  deriving DecidableEq, Repr

/-- copyman.py:552-553, 654-655, 540-541 `accept`. -/
def accept (r : Rcv) (d : Data) : Rcv :=
  match r.proto, d with
  | .pq, .bytes b => { r with view := b }
  | .chunks, .rows l => { r with lines := some l }
  | _, _ => r

/-- copyman.py:555-557: `while self.view: self.view = self.view[self.send(self.view):]`; whether it returned, and the rest of the script, the
view and what was sent. -/
def sendLoop : List Send → Bytes → Bytes → Bool × List Send × Bytes × Bytes
  | s, [], sent => (true, s, [], sent)
  | [], v, sent => (true, [], [], sent ++ v)
  | .took n :: s, v, sent => sendLoop s (v.drop n) (sent ++ v.take n)
  | .fault :: s, v, sent => (false, s, v, sent)

/-- copyman.py:555-557, 649-652, 536-538 `transmit`; `false` if it raised. -/
def transmit (r : Rcv) : Bool × Rcv :=
  match r.proto with
  | .pq =>
    match sendLoop r.sends r.view r.sent with
    | (ok, s, v, sent) => (ok, { r with sends := s, view := v, sent := sent })
  | .chunks =>
    match r.lines with
    | none => (true, r)
    | some l =>
      match r.calls with
      | true :: c => (false, { r with calls := c })
      | false :: c => (true, { r with calls := c, lines := none, got := r.got ++ [l] })
      | [] => (true, { r with lines := none, got := r.got ++ [l] })
  | .null => (true, r)

/-- What the producer's `__next__` does. -/
inductive PEvent where | data (d : Data) | stop | fault
  deriving DecidableEq, Repr

/-- The manager.  `log` is not in the program: what the producer has produced and the transformer has converted so far. -/
structure Mgr where
  src : Proto
  script : List PEvent
  rcvs : List Rcv
  protocols : List Proto
  buf : PBuffer.Stream := {}
  seen : Bool := false
  log : List Data := []
  deriving DecidableEq, Repr

/-- copyman.py:675-684 `__init__` and 130-138: the transformer. -/
def Mgr.new (src : Proto) (script : List PEvent) (rcvs : List Rcv) : Mgr :=
  { src, script, rcvs, protocols := rcvs.map Rcv.proto }

/-- How a call ends. -/
inductive Res where | ok | stop | producerFault | receiverFault | error (e : Err) | copyFail
  deriving DecidableEq, Repr

/-- copyman.py:112-128 and 91-98: the data for a target protocol.  `ChunkProtocol` writes to its buffer and reads all messages. -/
def transformTo (src : Proto) (d : Data) (buf : PBuffer.Stream) (tgt : Proto) : Except Err (Data × PBuffer.Stream) :=
  match src, tgt, d with
  | .pq, .chunks, .bytes b =>
    match PBuffer.read (PBuffer.write buf b) with
    | (.ok l, s) => .ok (.rows (l.map Prod.snd), s)
    | (.error e, _) => .error e
  | .chunks, .pq, .rows l => do
    let b ← catMessages (l.map Item.raw)
    return (.bytes b, buf)
  | .null, .pq, _ => .ok (.bytes [], buf)
  | .null, .chunks, _ => .ok (.rows [], buf)
  | .pq, .null, _ => .ok (.nothing, buf)
  | .chunks, .null, _ => .ok (.nothing, buf)
  | _, _, d => .ok (d, buf)

/-- copyman.py:134-137: protocols nobody asked for are not made. -/
def forTarget (m : Mgr) (d : Data) (tgt : Proto) : Except Err (Data × PBuffer.Stream) :=
  if tgt ∈ m.protocols then transformTo m.src d m.buf tgt else .ok (.nothing, m.buf)

/-- copyman.py:140-142: the transformer called; the data for `pq`, for `chunks`, and the buffer.  (When it raises, the model keeps the buffer
as it was.) -/
def transform (m : Mgr) (d : Data) : Except Err (Data × Data × PBuffer.Stream) := do
  let a ← forTarget m d .pq
  let b ← forTarget m d .chunks
  return (a.1, b.1, b.2)

/-- What a receiver is given. -/
def forRcv (a b : Data) (r : Rcv) : Data := match r.proto with | .pq => a | .chunks => b | .null => .nothing

/-- copyman.py:764-783 `_service_producer`. -/
def serviceProducer (m : Mgr) : Res × Mgr :=
  if m.rcvs.all (fun r => !r.active) then (.stop, m)
  else match m.script with
    | [] => (.stop, { m with seen := true })
    | .stop :: s => (.stop, { m with seen := true, script := s })
    | .fault :: s => (.producerFault, { m with script := s })
    | .data d :: s =>
      let m := { m with script := s }
      match transform m d with
      | .error e => (.error e, m)
      | .ok (a, b, buf) =>
        (.ok, { m with buf := buf, log := m.log ++ [d], rcvs := m.rcvs.map fun r => if r.active then accept r (forRcv a b r) else r })

/-- copyman.py:785-798: one receiver served; out of the set if it faulted. -/
def serve (r : Rcv) : Rcv :=
  if r.active then
    match transmit r with
    | (true, r) => r
    | (false, r) => { r with active := false }
  else r

/-- copyman.py:785-798 `_service_receivers`. -/
def serviceReceivers (m : Mgr) : Res × Mgr :=
  let m' := { m with rcvs := m.rcvs.map serve }
  if m.rcvs.any (fun r => r.active && !(transmit r).1) then (.receiverFault, m') else (.ok, m')

/-- copyman.py:813-829 `__next__`, without the statistics. -/
def step (m : Mgr) : Res × Mgr :=
  match serviceProducer m with
  | (.ok, m) => serviceReceivers m
  | r => r

/-- copyman.py:750-762 `reconcile` of the receiver with index `i`. -/
def reconcile (m : Mgr) (i : Nat) : Res × Mgr :=
  match m.rcvs[i]? with
  | none => (.error .runtimeError, m)
  | some r =>
    if r.proto ∈ m.protocols then
      match transmit r with
      | (true, r) => (.ok, { m with rcvs := m.rcvs.set i { r with active := true } })
      | (false, r) => (.receiverFault, { m with rcvs := m.rcvs.set i r })
    else (.error .runtimeError, m)

/-- copyman.py:813-829 and 750-762: what a user of the manager does between entering and leaving it. -/
inductive Op where | next | reconcile (i : Nat)
  deriving DecidableEq, Repr

/-- One operation; the user traps what it raises. -/
def apply (m : Mgr) : Op → Mgr
  | .next => (step m).2
  | .reconcile i => (reconcile m i).2

/-- What realigning and leaving the producer do: raise or not; after realigning, a producer of protocol data has only the
completion of the last message to give. -/
structure ProdExit where
  realignRaises : Bool := false
  realigned : Option (List PEvent) := none
  exitRaises : Bool := false

/-- copyman.py:703-722: realigning the producer, taking the rest of its message and leaving it; whether that failed. -/
def realignStep (m : Mgr) (pe : ProdExit) : Bool × Mgr :=
  if pe.realignRaises then (true, m)
  else
    match serviceProducer { m with script := pe.realigned.getD m.script } with
    | (.ok, m) => (pe.exitRaises, m)
    | (.stop, m) => (pe.exitRaises, m)
    | (_, m) => (true, m)

/-- copyman.py:699-748 `__exit__`; `exc`: an exception is being raised in the block.  (Exceptions that are no `Exception` are not modelled.) -/
def leave (m : Mgr) (pe : ProdExit) (exc : Bool) : Res × Mgr :=
  match realignStep m pe with
  | (profail, m) =>
    if m.rcvs.all (fun r => !r.active) then (.copyFail, m)
    else if exc || m.rcvs.any (fun r => r.active && r.exitRaises) || profail || !m.seen then (.copyFail, m)
    else (.ok, m)

/-- copyman.py:803-805: the loop of `run`; the fuel is more than the script has events. -/
def runLoop : Nat → Mgr → Res × Mgr
  | 0, m => (.error .nonTermination, m)
  | fuel + 1, m =>
    match step m with
    | (.ok, m) => runLoop fuel m
    | r => r

/-- copyman.py:686-697: `__enter__`; a receiver that raises ends in `__exit__`, which raises CopyFail. -/
def enterFails (m : Mgr) : Bool := m.rcvs.any Rcv.enterRaises

/-- copyman.py:800-808 `run`, from entering to leaving. -/
def run (m : Mgr) (pe : ProdExit) : Res × Mgr :=
  if enterFails m then leave m pe true
  else match runLoop (m.script.length + 1) m with
    | (.stop, m) => leave m pe false
    | (.error .nonTermination, m) => (.error .nonTermination, m)
    | (_, m) => leave m pe true

end PG.CopyMan
