import Verif.Model.Itertools
/-!
# Model of `Statement.load_rows` and `load_chunks` in `postgresql/driver/pq3.py`

The server is a parameter: what executing the statement once does to the stored data, `none` if it fails. The protocol transaction that is pushed is answered when it is completed; a failing statement makes the server skip the rest up to Synchronize (protocol documentation).
Outside of a transaction block what is between two Synchronize messages is one transaction. Parameters are packed by `pack` (`process_tuple`), `none` if it raises.
Not modelled: texts of errors, loss of the connection, COPY data (modelled with the protocol transactions).
-/
namespace PG.LoadRows
open PG.Itertools

/-- The connection: the data, whether in a transaction block, whether the block is aborted, the chunk on its way (`pq.xact`). -/
structure Db (σ π : Type) where
  state : σ
  block : Bool
  aborted : Bool
  pending : Option (List π)
  deriving DecidableEq, Repr

/-- The server: Bind and Execute for each, then Synchronize. -/
def serve {σ π : Type} (exec : σ → π → Option σ) (db : Db σ π) (ps : List π) : Bool × Db σ π :=
  if db.aborted ∧ ps ≠ [] then (false, { db with pending := none })
  else
    match ps.foldlM exec db.state with
    | some s => (true, { db with state := s, pending := none })
    | none => (false, { db with aborted := db.block, pending := none })

/-- client3.py:443-480 `complete`: `false` if the transaction failed. -/
def complete {σ π : Type} (exec : σ → π → Option σ) (db : Db σ π) : Bool × Db σ π :=
  match db.pending with
  | none => (true, db)
  | some ps => serve exec db ps

/-- pq3.py:2603-2611 `_pq_push`: completes what is running, raises its error; `false` if raised. -/
def push {σ π : Type} (exec : σ → π → Option σ) (db : Db σ π) (ps : List π) : Bool × Db σ π :=
  match complete exec db with
  | (true, db) => (true, { db with pending := some ps })
  | (false, db) => (false, db)

/-- pq3.py:1779-1826 `_load_tuple_chunks`; `fails` is whether iterating over the chunks raises after these. The `except` completes what is running, and raises again. -/
def loadTuples {σ ρ π : Type} (exec : σ → π → Option σ) (pack : ρ → Option π) (fails : Bool) : Db σ π → List (List ρ) → Bool × Db σ π
  | db, [] =>
    if fails then (false, (complete exec db).2)
    else complete exec db
  | db, c :: cs =>
    match c.mapM pack with
    | none => (false, (complete exec db).2)
    | some ps =>
      match push exec db ps with
      | (true, db) => loadTuples exec pack fails db cs
      | (false, db) => (false, (complete exec db).2)

/-- pq3.py:1750-1760: `_load_copy_chunks` of a statement that is not a COPY: it has been executed when this is noticed; `once` is what it does. -/
def loadNoCopy {σ π : Type} (once : σ → Option σ) (db : Db σ π) : Bool × Db σ π :=
  if db.aborted then (false, db)
  else
    match once db.state with
    | some s => (false, { db with state := s })
    | none => (false, { db with aborted := db.block })

/-- pq3.py:1828-1841 `load_chunks` of a statement that is not a COPY, without further arguments; `parameters` is the number of its parameters, `once` what executing it without any does. -/
def loadChunks {σ ρ π : Type} (exec : σ → π → Option σ) (once : σ → Option σ) (pack : ρ → Option π) (parameters : Nat) (fails : Bool) (db : Db σ π) (cs : List (List ρ)) : Bool × Db σ π :=
  if parameters = 0 then loadNoCopy once db
  else loadTuples exec pack fails db cs

/-- itertools.py:23-40 over an iterable that raises after its last item: the piece that was being made is lost. -/
def chunkOf {ρ : Type} (rows : List ρ) (fails : Bool) (n : Nat) : List (List ρ) :=
  if fails then (chunk rows n).dropLast else chunk rows n

/-- pq3.py:1843-1844 `load_rows`. -/
def loadRows {σ ρ π : Type} (exec : σ → π → Option σ) (once : σ → Option σ) (pack : ρ → Option π) (parameters : Nat) (db : Db σ π) (rows : List ρ) (fails : Bool) (chunksize : Nat) : Bool × Db σ π :=
  loadChunks exec once pack parameters fails db (chunkOf rows fails chunksize)

end PG.LoadRows
