import Verif.Model.Lifecycle
/-!
# Model of `Statement._load_copy_chunks` (`driver/pq3.py` 1730-1779): loading COPY lines

The statement's transaction is the one with identity `k`; the rest of the driver does not replace it while this method runs.
Every loop is cut off after `fuel` passes (`blocked`): a loop that does not end.

Simplification: `chunks` is the list of what the iterable yields, each `chunk` the list of what it yields; `ends` is the
exception the iterable (or `list(chunk)`) raises after that, if it does.
-/
namespace PG.CopyLoad
open PG PG.Element3 PG.Xact3 PG.Client3 PG.Lifecycle

/-- pq3.py:1736-1744: the commands. -/
def commands (stmt : Bytes) : List Elem := [.bind [] stmt [] [] [], .execute [] 1, .empty .synchronize]

/-- `x`, when it is the transaction of the connection. -/
def mine (k : Nat) (db : Db) : Option Inst :=
  match db.pq with
  | .conn c => match c.xact with
    | some (.inst x) => if x.oid = k then some x.inst else none
    | _ => none
  | _ => none

/-- `x.state is xact.Complete`: a transaction that was removed from the connection is complete (client3.py:432-435). -/
def finished (k : Nat) (db : Db) : Bool :=
  match db.pq with
  | .conn c => match c.xact with
    | none => true
    | some (.inst x) => if x.oid = k then x.inst.state = .complete else false
    | some (.closing _) => false
  | _ => false

/-- `x.messages is x.CopyFailSequence` (pq3.py:1755, 1771). -/
def ready (k : Nat) (db : Db) : Bool :=
  match mine k db with
  | some i => i.messages = .copyFail
  | none => false

/-- pq3.py:1749-1767: start the COPY; `ok` when the loop ends with `break`.  The error made when it is not a COPY is a client
error (it replaces the error of a transaction that is still there: one the client made as well). -/
def start (k : Nat) : Nat → Db → Db × Outcome
  | 0, db => (db, .blocked)
  | fuel + 1, db =>
    if finished k db then
      (db, .dbError (((mine k db).bind (·.fatal)).getD false) none)
    else match pqStep db with
      | (db, .ok) => if ready k db then (db, .ok) else start k fuel db
      | r => r

/-- `x.messages = list(chunk)`, a new list, or `x.messages = x.CopyDoneSequence` (pq3.py:1770, 1777). -/
def give (k : Nat) (m : Option (List Item)) (db : Db) : Db :=
  match db.pq with
  | .conn c => match c.xact with
    | some (.inst x) =>
      if x.oid = k then
        match m with
        | some l => { db with pq := .conn { c with
            nextId := c.nextId + 1
            xact := some (.inst { x with inst := { x.inst with messages := .data l }, user := c.nextId }) } }
        | none => { db with pq := .conn { c with xact := some (.inst { x with inst := { x.inst with messages := .copyDone } }) } }
      else db
    | _ => db
  | _ => db

/-- pq3.py:1771-1776: step until the data was sent. -/
def flush (k : Nat) : Nat → Db → Db × Outcome
  | 0, db => (db, .blocked)
  | fuel + 1, db =>
    if ready k db then (db, .ok)
    else match pqStep db with
      | (db, .ok) => flush k fuel db
      | r => r

/-- pq3.py:1769-1776: the loop over the chunks. -/
def feed (k fuel : Nat) : List (List Item) → Db → Db × Outcome
  | [], db => (db, .ok)
  | l :: ls, db => match flush k fuel (give k (some l) db) with
    | (db, .ok) => feed k fuel ls db
    | r => r

/-- pq3.py:1777-1779: end the data, complete, synchronize. -/
def finishLoad (k fuel : Nat) (db : Db) : Db × Outcome :=
  match pqComplete fuel (give k none db) with
  | (db, .ok) => pqSynchronize fuel db
  | r => r

/-- pq3.py:1732-1776: start the COPY and send the data. -/
def sendChunks (f : Finalizers) (fuel : Nat) (stmt : Bytes) (chunks : List (List Item)) (db : Db) (k : Nat) : Db × Outcome :=
  match pqStart f fuel db (commands stmt) with
  | (db, .ok) => match start k fuel db with
    | (db, .ok) => feed k fuel chunks db
    | r => r
  | r => r

/-- pq3.py:1730-1779 `_load_copy_chunks(chunks)` of a statement with identifier `stmt`. -/
def load (f : Finalizers) (fuel : Nat) (stmt : Bytes) (chunks : List (List Item)) (ends : Option Err) (db : Db) : Db × Outcome :=
  match db.pq with
  | .conn c => match sendChunks f fuel stmt chunks db c.nextId with
    | (db, .ok) => match ends with
      | some e => (db, .raised (.py e))
      | none => finishLoad c.nextId fuel db
    | r => r
  | _ => (db, .raised (.py .attributeError))

end PG.CopyLoad
