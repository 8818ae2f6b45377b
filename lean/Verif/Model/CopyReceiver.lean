import Verif.Model.CopyLoad
/-!
# Model of `postgresql/copyman.py`: `StatementReceiver`, over the driver's connection

The receiver brings the connection into the COPY state through `load_chunks` (`CopyLoad`), writes to the socket itself, and hands the
connection back when it is left.  The socket is the one of the connection (`Client3`): what its `send` will do, and what reached the server.

Not modelled: `count()` and `command()` (622-624, 631-635: the message they read is looked for in what the transaction received, which cannot raise), tracing.
-/
namespace PG.CopyReceiver
open PG PG.Element3 PG.Xact3 PG.Client3 PG.Lifecycle PG.CopyLoad

/-- copyman.py:543-576: the receiver with its connection; `xact` is the identity of the transaction it noted. -/
structure Rcv where
  db : Db
  view : Bytes := []
  xact : Option Nat := none

/-- copyman.py:587-597 `__enter__`: `load_chunks` with an iterator that raises `WireReady`, a `BaseException` that goes through everything
(pq3.py:1769: the iterator is asked for the first chunk when the COPY has started).  When `load_chunks` raises before that, so does `__enter__`. -/
def enter (f : Finalizers) (fuel : Nat) (stmt : Bytes) (r : Rcv) : Rcv × Outcome :=
  match r.db.pq with
  | .conn c => match sendChunks f fuel stmt [] r.db c.nextId with
    | (db, .ok) => ({ r with db := db, xact := some c.nextId }, .ok)
    | (db, o) => ({ r with db := db }, o)
  | _ => (r, .raised (.py .attributeError))

/-- copyman.py:552-553 `accept`. -/
def accept (data : Bytes) (r : Rcv) : Rcv := { r with view := data }

/-- copyman.py:555-557 `transmit`: `while self.view: self.view = self.view[self.send(self.view):]`, directly on the socket. -/
def transmit (r : Rcv) : Rcv × Res Unit :=
  match r.db.pq with
  | .conn c => match sendLoop (plug r.db.socket c).sends r.view c.wire with
    | (evs, v, w, res) => ({ r with view := v, db := { r.db with pq := .conn { c with sends := evs, wire := w } } }, res)
  | _ => (r, .raised (.py .attributeError))

/-- What `__exit__` is given: no exception, an `Exception`, or another `BaseException`. -/
inductive Typ where | none | exception | base
  deriving DecidableEq, Repr

/-- copyman.py:609-611: `pq.message_data = bytes(self.view)`. -/
def handBack (r : Rcv) : Db :=
  match r.db.pq with
  | .conn c => { r.db with pq := .conn { c with messageData := r.view } }
  | _ => r.db

/-- copyman.py:599-629 `__exit__`. -/
def exit (fuel : Nat) (t : Typ) (r : Rcv) : Rcv × Outcome :=
  match r.xact with
  | none => (r, .ok)                                                                                   -- 600-602
  | some k =>
    if r.view ≠ [] then match pqComplete fuel (handBack r) with | (db, o) => ({ r with db := db }, o)  -- 604-612
    else match t with
      | .none => match pqComplete fuel (give k none r.db) with | (db, o) => ({ r with db := db }, o)   -- 616-620
      | .exception => match pqComplete fuel r.db with | (db, o) => ({ r with db := db }, o)            -- 625-627
      | .base => (r, .ok)

/-- What the manager does with a receiver between entering and leaving it (copyman.py:781-783, 789, 760). -/
inductive Op where | accept (data : Bytes) | transmit
  deriving DecidableEq, Repr

/-- One of these; what `transmit` raises is trapped (copyman.py:788-791). -/
def apply (r : Rcv) : Op → Rcv
  | .accept d => accept d r
  | .transmit => (transmit r).1

end PG.CopyReceiver
