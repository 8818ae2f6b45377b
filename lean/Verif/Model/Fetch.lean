import Verif.Model.Xact3
/-!
# Model of the result streams in `postgresql/driver/pq3.py`: `FetchAll` and `MultiXactStream`

`FetchAll` is modelled over the model of protocol transactions: the wire is a list of batches of messages, and what
`Connection._pq_step` does is to deliver the next one. While the transaction is not complete it is the one that the connection steps (client3.py:385-410 completes it before it takes another), so `pq.xact is x` is "not complete".
`MultiXactStream` is modelled over the server's portal: asking for `n` rows returns the next `n`, or what is left.
Not modelled: transactions that want to send (COPY FROM STDIN run through a result stream), texts of errors, garbage collection of cursors.
-/
namespace PG.Fetch
open PG PG.Element3 PG.Xact3

/-- `y.__class__ in (tuple, bytes)`. -/
def isData : Proc → Bool
  | .raw _ => true
  | .elem (.tuple _) => true
  | .elem _ => false

/-- `getattr(y, 'type', None) == element.Complete.type`. -/
def isComplete : Proc → Bool
  | .elem (.complete _) => true
  | _ => false

/-- A `FetchAll` object: `_xact`, what the server is going to send, `_complete_message`. -/
structure All where
  xact : Option Inst
  wire : List Batch
  complete : Option Proc
  deriving DecidableEq, Repr

/-- How a loop of steps ends. -/
inductive Stepped where
  | fine
  /-- the step raised: the error of the transaction, or an exception while processing messages -/
  | raised
  /-- waits for a server that sends nothing more -/
  | blocked
  deriving DecidableEq, Repr

/-- pq3.py:2626-2636 `_pq_step` in a loop `while x.state is not Complete and not stop(x)` (the `while` of pq3.py:935-936, and that of client3.py:443-480 `complete`). -/
def steps (stop : Inst → Bool) (i : Inst) : List Batch → Inst × List Batch × Stepped
  | [] => if i.state = .complete ∨ stop i then (i, [], .fine) else (i, [], .blocked)
  | b :: bs =>
    if i.state = .complete ∨ stop i then (i, b :: bs, .fine)
    else
      match deliver i b with
      | (i', .error _) => (i', bs, .raised)
      | (i', .ok _) => if i'.state = .complete ∧ i'.fatal ≠ none then (i', bs, .raised) else steps stop i' bs

/-- What a call returns. -/
inductive Out (β : Type) where
  | chunk (l : List β)
  | stop
  | raised
  | blocked
  deriving DecidableEq, Repr

/-- pq3.py:924-968 `__next__`; `decode` is `_process_chunk`, `none` when it raises. -/
def next {β : Type} (decode : List Proc → Option (List β)) (a : All) : Out β × All :=
  match a.xact with
  | none => (.stop, a)
  | some i =>
    match steps (fun x => !x.completed.isEmpty) i a.wire with
    | (i', w, .blocked) => (.blocked, { a with xact := some i', wire := w })
    | (i', w, .raised) => (.raised, { a with xact := some i', wire := w })
    | (i', w, .fine) =>
      if i'.fatal ≠ none then (.raised, { a with xact := some i', wire := w })
      else
        match i'.completed with
        | [] => (.stop, { a with xact := none, wire := w })
        | (_, ms) :: rest =>
          match decode (ms.filter isData) with
          | none => (.raised, { a with xact := some i', wire := w })
          | some r => (.chunk r, { xact := some { i' with completed := rest }, wire := w, complete := ((ms.drop (ms.length - 3)).filter isComplete).getLast?.or a.complete })

/-- Another statement is executed on the connection in between: `_pq_push` (2603-2611) first completes the running transaction. The answer to the other one is not modelled. -/
def interfere (a : All) : All :=
  match a.xact with
  | none => a
  | some i => { a with xact := some (steps (fun _ => false) i a.wire).1, wire := (steps (fun _ => false) i a.wire).2.1 }

/-- `for chunk in stream`, with enough turns; a list of booleans says before which turns something else uses the connection. -/
def iterate {β : Type} (decode : List Proc → Option (List β)) : List Bool → All → List (List β) × Out β × All
  | [], a => ([], .blocked, a)
  | t :: ts, a =>
    match next decode (if t then interfere a else a) with
    | (.chunk r, a') => (r :: (iterate decode ts a').1, (iterate decode ts a').2)
    | (o, a') => ([], o, a')

/-- What a message makes of the loop in `_init` (890-922). -/
inductive Seen where
  | data
  | null
  | complete (p : Proc)
  | noise
  | unexpected
  deriving DecidableEq, Repr

/-- pq3.py:890-922: one message; `copy` is whether the object is a `SingleXactCopy` (970-972) or a `SingleXactFetch` (974-975). Bytes have no `type`: AttributeError, here `unexpected` (they do not come before CopyToBegin). -/
def seen (copy : Bool) : Proc → Seen
  | .elem (.tuple _) => .data
  | .elem (.copyToBegin ..) => if copy then .data else .unexpected
  | .elem (.empty .null) => .null
  | .elem (.complete c) => .complete (.elem (.complete c))
  | .elem (.empty .bindComplete) => .noise
  | .elem (.empty .parseComplete) => .noise
  | _ => .unexpected

/-- The first message that is not noise. -/
def firstSeen (copy : Bool) : List Proc → Seen
  | [] => .noise
  | p :: ps => match seen copy p with
    | .noise => firstSeen copy ps
    | s => s

/-- pq3.py:874-922 `_init`, after the commands are sent: step until something is seen; `raised` is an exception from the constructor. -/
def init (copy : Bool) (i : Inst) : List Batch → Stepped × All
  | [] => (if i.state = .complete then .fine else .blocked, ⟨some i, [], none⟩)
  | b :: bs =>
    if i.state = .complete then (.fine, ⟨some i, b :: bs, none⟩)
    else
      match deliver i b with
      | (i', .error _) => (.raised, ⟨some i', bs, none⟩)
      | (i', .ok _) =>
        if i'.state = .complete ∧ i'.fatal ≠ none then (.raised, ⟨some i', bs, none⟩)
        else
          match firstSeen copy (messagesReceived i') with
          | .noise => init copy i' bs
          | .data => (.fine, ⟨some i', bs, none⟩)
          | .null => ((steps (fun _ => false) i' bs).2.2, ⟨none, (steps (fun _ => false) i' bs).2.1, none⟩)
          | .complete p => ((steps (fun _ => false) i' bs).2.2, ⟨none, (steps (fun _ => false) i' bs).2.1, some p⟩)
          | .unexpected => (.raised, ⟨some (steps (fun _ => false) i' bs).1, (steps (fun _ => false) i' bs).2.1, none⟩)

/-! ## `MultiXactStream` -/

/-- How rows are asked for: `Execute` (1038-1044) in a block, `FETCH FORWARD` (1049-1063) outside. -/
inductive Way where
  | execute
  | fetch
  deriving DecidableEq, Repr

/-- The server's portal: the rows that the query has still to give, whether computing a further one then fails, the row fetched last, and how many rows of a failing reply are kept by the client (those of the batches before the one with the error). -/
structure Portal (α : Type) where
  rows : List α
  fails : Bool
  current : Option α
  keep : Nat
  deriving DecidableEq, Repr

/-- The answer to a request: the rows that `messages_received()` gives, and whether it ended with an error (`fatal is not None`). -/
structure Reply (α : Type) where
  rows : List α
  failed : Bool
  deriving DecidableEq, Repr

/-- The server runs the query to its end. -/
def Portal.rest {α : Type} (p : Portal α) : Reply α × Portal α :=
  if p.fails then (⟨p.rows.take p.keep, true⟩, { p with rows := [] })
  else (⟨p.rows, false⟩, { p with rows := [], current := p.rows.getLast?.or p.current })

/-- The server: the next `n` rows. `Execute` with limit 0 has no limit; `FETCH FORWARD 0` fetches the current row again (PostgreSQL's documentation of FETCH). -/
def Portal.ask {α : Type} (w : Way) (n : Nat) (p : Portal α) : Reply α × Portal α :=
  if n = 0 then
    match w with
    | .execute => p.rest
    | .fetch => (⟨p.current.toList, false⟩, p)
  else if n ≤ p.rows.length then (⟨p.rows.take n, false⟩, { p with rows := p.rows.drop n, current := (p.rows.take n).getLast?.or p.current })
  else p.rest

/-- A `MultiXactStream`: the portal, the answer on its way (`_xact`; a transaction that is never sent has no messages), whether it is the running transaction of the connection (`pq.xact is x`), the quantity in `_command`, `chunksize`. -/
structure Multi (α : Type) where
  way : Way
  portal : Portal α
  pending : Option (Reply α)
  running : Bool
  asked : Nat
  chunksize : Nat
  deriving DecidableEq, Repr

/-- pq3.py:1004-1007 `_init`: the command is made once, with the chunk size of that moment. -/
def start {α : Type} (w : Way) (p : Portal α) (chunksize : Nat) : Multi α :=
  { way := w, portal := (p.ask w chunksize).2, pending := some (p.ask w chunksize).1, running := true, asked := chunksize, chunksize := chunksize }

/-- What else happens on the connection before a turn. -/
inductive Between where
  | quiet
  /-- another statement is executed, to its end -/
  | statement
  /-- another stream has asked for rows, and is going to be answered with an error -/
  | failing
  deriving DecidableEq, Repr

/-- pq3.py:2603-2611 `_pq_push` of the other one: it completes the running transaction. If that failed, its error is raised there, and the other one is not executed. -/
def disturb {α : Type} (m : Multi α) : Multi α := { m with running := false }

/-- pq3.py:1009-1033 `__next__`; `other` is whether the running transaction of the connection is of another stream and fails. A failing `_pq_complete` (2613-2622) leaves `_xact`. A `_pq_push` that raises the error of the other one comes after `_xact` was replaced by the transaction that is then not sent. -/
def nextMulti {α β : Type} (decode : List α → Option (List β)) (other : Bool) (m : Multi α) : Out β × Multi α :=
  match m.pending with
  | none => (.stop, m)
  | some r =>
    if m.running ∧ r.failed then (.raised, { m with running := false })
    else if r.rows.length = m.chunksize then
      if other then (.raised, { m with pending := some ⟨[], false⟩, running := false })
      else
        ((match decode r.rows with | some c => .chunk c | none => .raised), { m with portal := (m.portal.ask m.way m.asked).2, pending := some (m.portal.ask m.way m.asked).1, running := true })
    else if r.rows.isEmpty then (.stop, { m with pending := none, running := false })
    else ((match decode r.rows with | some c => .chunk c | none => .raised), { m with pending := none, running := false })

/-- One turn. -/
def turn {α β : Type} (decode : List α → Option (List β)) (t : Between) (m : Multi α) : Out β × Multi α :=
  match t with
  | .quiet => nextMulti decode false m
  | .statement => nextMulti decode false (disturb m)
  | .failing => nextMulti decode true (disturb m)

/-- `for chunk in stream`, with enough turns. -/
def iterateMulti {α β : Type} (decode : List α → Option (List β)) : List Between → Multi α → List (List β) × Out β × Multi α
  | [], m => ([], .blocked, m)
  | t :: ts, m =>
    match turn decode t m with
    | (.chunk r, m') => (r :: (iterateMulti decode ts m').1, (iterateMulti decode ts m').2)
    | (o, m') => ([], o, m')

/-! ## The methods of `Statement` -/

/-- `_process_tuple_chunk` and the others: every row by itself (process_chunk, process_tuple; see the model of rows), the first failure raises. -/
def perRow {α β : Type} (f : α → Option β) (l : List α) : Option (List β) := l.mapM f

end PG.Fetch
