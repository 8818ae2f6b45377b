import Verif.Model.CopyMan
import Verif.Model.Fetch
/-!
# Model of `postgresql/copyman.py`: `StatementProducer`, over the bytes that the socket returns

The producer takes the bytes of a `COPY ... TO STDOUT` partly through the connection's own machinery (`SingleXactCopy`, the protocol transaction, the
message buffer) and partly from the socket, without it.  The socket is the list of what the coming `recv`/`recv_into` calls return (an empty
string: the peer closed); when the list is empty a call blocks for ever.  `xact` is the object `_chunks._xact`; the connection works on it while it is
not complete (client3.py:432-435).  Everything that raises is `raised`; which exception it is, is not modelled.
Not modelled: exceptions of the socket, tracing, `interrupt()` (its effect is in what the server sends), other users of the connection while the COPY runs.
-/
namespace PG.CopyTo
open PG PG.PBuffer PG.Element3 PG.Xact3 PG.CopyMan

/-- What the producer uses of `statement.database.pq` (client3.py:526-558). -/
structure Pq where
  stream : Stream := {}
  read : Batch := ⟨0, []⟩
  readData : Option Bytes := none
  recvs : List Bytes := []
  /-- identity of the next list object -/
  nextId : Nat := 1
  deriving DecidableEq, Repr

/-- How `read_into` ends. -/
inductive Got where | message | closed | raised | blocked
  deriving DecidableEq, Repr

/-- client3.py:233-269: the loop of `read_into` once `read_data` is `None`. -/
def readIntoLoop (s : Stream) : List Bytes → Stream × List Bytes × Option Bytes × Got
  | [] => match hasMessage s with
    | .error _ => (s, [], none, .raised)
    | .ok true => (s, [], none, .message)
    | .ok false => (s, [], none, .blocked)
  | d :: ds => match hasMessage s with
    | .error _ => (s, d :: ds, none, .raised)
    | .ok true => (s, d :: ds, none, .message)
    | .ok false => if d = [] then (s, ds, some [], .closed) else readIntoLoop (write s d) ds

/-- client3.py:224-269 `read_into`. -/
def readInto (q : Pq) : Stream × List Bytes × Option Bytes × Got :=
  match hasMessage q.stream with
  | .error _ => (q.stream, q.recvs, q.readData, .raised)
  | .ok true => (q.stream, q.recvs, q.readData, .message)
  | .ok false => readIntoLoop (match q.readData with | some d => write q.stream d | none => q.stream) q.recvs

/-- client3.py:271-282 `standard_read_messages`. -/
def readMessages (q : Pq) : Pq × Got :=
  if q.read.msgs ≠ [] then (q, .message)
  else
    match readInto q with
    | (s, rs, rd, .message) => match PBuffer.read s with
      | (.error _, s) => ({ q with stream := s, recvs := rs, readData := rd }, .raised)
      | (.ok ms, s) => ({ q with stream := s, recvs := rs, readData := rd, read := ⟨q.nextId, ms⟩, nextId := q.nextId + 1 }, .message)
    | (s, rs, rd, g) => ({ q with stream := s, recvs := rs, readData := rd }, g)

/-- pq3.py:2626-2636 `_pq_step` and client3.py:404-435 `step`, for a transaction that receives. When the peer closed, the transaction is failed and the step raises (from `op` on no messages, or by 2633-2635). -/
def stepX (i : Inst) (q : Pq) : Inst × Pq × Fetch.Stepped :=
  match readMessages q with
  | (q, .blocked) => (i, q, .blocked)
  | (q, .raised) => (i, q, .raised)
  | (q, .closed) => ({ i with state := .complete, fatal := some true }, q, .raised)
  | (q, .message) =>
    match deliver i q.read with
    | (i', .error _) => (i', q, .raised)
    | (i', .ok n) =>
      (i', { q with read := ⟨q.nextId, q.read.msgs.drop n⟩, nextId := q.nextId + 1 },
        if i'.state = .complete ∧ i'.fatal ≠ none then .raised else .fine)

/-- `while x.state is not Complete and not stop(x): _pq_step()`, cut off after `fuel` steps (`blocked`; proved not to happen for what servers send). -/
def stepsX (stop : Inst → Bool) : Nat → Inst → Pq → Inst × Pq × Fetch.Stepped
  | 0, i, q => (i, q, .blocked)
  | fuel + 1, i, q =>
    if i.state = .complete ∨ stop i then (i, q, .fine)
    else
      match stepX i q with
      | (i', q', .fine) => stepsX stop fuel i' q'
      | r => r

/-- `self.nextchunk` (copyman.py:382, 403-407, 427, 503, 509, 517). -/
inductive Mode where
  | confiscate
  | recvView
  /-- an iterator over these views -/
  | views (l : List Bytes)
  deriving DecidableEq, Repr

/-- copyman.py:455-511 a `StatementProducer` in use, its chunks and its connection. -/
structure SP where
  pq : Pq
  xact : Option Inst
  complete : Option Proc
  prod : Prod
  mode : Mode
  deriving DecidableEq, Repr

/-- An upper bound of the number of steps: each takes at least a byte from the socket or a message from the buffer. -/
def fuelOf (q : Pq) : Nat := q.recvs.flatten.length + q.stream.strio.buf.length + q.read.msgs.length + 2

/-- Rows are `bytes` (pq3.py:741-747 `_process_copy_chunk`, on a list that was filtered for data). -/
def lines (ms : List Proc) : List Bytes := ms.filterMap fun | .raw d => some d | _ => none

/-- pq3.py:924-968 `SingleXactCopy.__next__`. -/
def nextChunk (p : SP) : Fetch.Out Bytes × SP :=
  match p.xact with
  | none => (.stop, p)
  | some i =>
    match stepsX (fun x => !x.completed.isEmpty) (fuelOf p.pq) i p.pq with
    | (i', q, .blocked) => (.blocked, { p with xact := some i', pq := q })
    | (i', q, .raised) => (.raised, { p with xact := some i', pq := q })
    | (i', q, .fine) =>
      if i'.fatal ≠ none then (.raised, { p with xact := some i', pq := q })
      else
        match i'.completed with
        | [] => (.stop, { p with xact := none, pq := q })
        | (_, ms) :: rest =>
          (.chunk (lines ms), { p with xact := some { i' with completed := rest }, pq := q, complete := ((ms.drop (ms.length - 3)).filter Fetch.isComplete).getLast?.or p.complete })

/-- copyman.py:484-487: `while not current: current.extend(next(self._chunks))`; at the end of the COPY nothing has been taken yet (488-491). -/
def taken : Nat → SP → Fetch.Out Bytes × SP
  | 0, p => (.blocked, p)
  | fuel + 1, p =>
    match nextChunk p with
    | (.chunk [], p) => taken fuel p
    | r => r

/-- What `next(producer)` does: publish a view, `StopIteration`, another exception, or block. -/
inductive Res where
  | view (v : Bytes)
  | stop
  | raised
  | blocked
  deriving DecidableEq, Repr

/-- copyman.py:505-508 `recover`, for what `process_copy_data` recovered. -/
def recovered (p : SP) : SP :=
  match p.prod.recovered with
  | none => p
  | some fv => { p with pq := { p.pq with stream := write p.pq.stream fv }, mode := .confiscate, prod := { p.prod with recovered := none } }

/-- copyman.py:498-503: the end of `confiscate`. The assertion looks at `_state`, which is `None` after non-COPY data. -/
def confiscated (v : Bytes) (p : SP) : Res × SP :=
  if p.xact.any (fun i => i.state = .complete) then
    match p.prod.state with
    | none => (.raised, { p with mode := .confiscate })
    | some s => if s.final = none then (.view v, { p with mode := .confiscate }) else (.raised, { p with mode := .confiscate })
  else (.view v, p)

/-- copyman.py:482-503 `confiscate`. -/
def confiscate (p : SP) : Res × SP :=
  match taken ((p.xact.map (·.completed.length)).getD 0 + fuelOf p.pq) p with
  | (.stop, p) => (.stop, p)
  | (.raised, p) => (.raised, p)
  | (.blocked, p) => (.blocked, p)
  | (.chunk current, p) =>
    match catMessages (current.map Item.raw) with
    | .error _ => (.raised, p)
    | .ok b =>
      let buffer := b ++ (getvalue p.pq.stream).1 ++ p.pq.readData.getD []
      let p := { p with pq := { p.pq with readData := none, stream := truncate (getvalue p.pq.stream).2 } }
      match trackState p.prod buffer with
      | .error _ => (.raised, { p with mode := .recvView })
      | .ok (v, prod) => confiscated v (recovered { p with prod := prod, mode := .recvView })

/-- copyman.py:430-437 `recv_view`. -/
def recvView (p : SP) : Res × SP :=
  match p.pq.recvs with
  | [] => (.blocked, p)
  | [] :: ds => confiscate { p with pq := { p.pq with recvs := ds, stream := write p.pq.stream [] }, mode := .confiscate }
  | (x :: xs) :: ds =>
    let p := { p with pq := { p.pq with recvs := ds } }
    match processCopyData p.prod (x :: xs) with
    | .error _ => (.raised, p)
    | .ok (v, prod) => (.view v, recovered { p with prod := prod })

/-- copyman.py:442-443 `__next__`. -/
def next (p : SP) : Res × SP :=
  match p.mode with
  | .confiscate => confiscate p
  | .recvView => recvView p
  | .views [] => (.stop, p)
  | .views (v :: l) => (.view v, { p with mode := .views l })

/-- A `for` loop over the producer, cut off after `n` turns: what was published, and how the last turn ended (`view`: it was cut off). -/
def run : Nat → SP → Bytes × Res × SP
  | 0, p => ([], .view [], p)
  | n + 1, p =>
    match next p with
    | (.view v, p') => (v ++ (run n p').1, (run n p').2)
    | (r, p') => ([], r, p')

/-- pq3.py:883-922: the loop of `_init` (for a `SingleXactCopy`), when the commands are sent; cut off after `fuel` steps. -/
def initLoop : Nat → Inst → Pq → Fetch.Stepped × Option Inst × Option Proc × Pq
  | 0, i, q => (.blocked, some i, none, q)
  | fuel + 1, i, q =>
    if i.state = .complete then (.fine, some i, none, q)
    else
      match stepX i q with
      | (i', q', .fine) =>
        match Fetch.firstSeen true (messagesReceived i') with
        | .noise => initLoop fuel i' q'
        | .data => (.fine, some i', none, q')
        | .null => match stepsX (fun _ => false) (fuelOf q') i' q' with
          | (_, q', r) => (r, none, none, q')
        | .complete c => match stepsX (fun _ => false) (fuelOf q') i' q' with
          | (_, q', r) => (r, none, some c, q')
        | .unexpected => match stepsX (fun _ => false) (fuelOf q') i' q' with
          | (i', q', _) => (.raised, some i', none, q')
      | (i', q', r) => (r, some i', none, q')

/-- copyman.py:511-517 `__enter__`: the COPY is executed (pq3.py:1619-1621, 867-922) on a connection that has nothing left to read, whose socket will return these pieces. -/
def enter (commands : List Elem) (recvs : List Bytes) : Except Err (Fetch.Stepped × SP) :=
  match Xact3.init commands with
  | .error e => .error e
  | .ok i =>
    match initLoop (fuelOf { recvs := recvs }) (sent i) { recvs := recvs } with
    | (r, x, c, q) => .ok (r, ⟨q, x, c, ⟨none, 0, 0, none⟩, .confiscate⟩)

/-- copyman.py:371-407 `realign`, with `recover` (505-508). -/
def realigned (p : SP) : Except Err SP :=
  match p.prod.state with
  | none => .ok { p with mode := .views [] }
  | some s =>
    match realign (some s) with
    | .error e => .error e
    | .ok (back, fill) => .ok { p with pq := { p.pq with stream := write p.pq.stream back }, mode := .views (if fill = [] then [] else [fill]) }

/-- copyman.py:519-530 `__exit__` after a failure or success: an unfinished transaction is completed (pq3.py:2614-2623 `_pq_complete`, client3.py:438-485). -/
def exit (p : SP) : Fetch.Stepped × SP :=
  match p.xact with
  | none => (.fine, p)
  | some i =>
    if i.state = .complete then (.fine, p)
    else
      match stepsX (fun _ => false) (fuelOf p.pq) i p.pq with
      | (i', q, r) => (if i'.fatal ≠ none ∧ r = .fine then .raised else r, { p with xact := some i', pq := q })

end PG.CopyTo
