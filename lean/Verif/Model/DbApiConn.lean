import Verif.Model.Transaction
/-!
# Model of `Connection` in `postgresql/driver/dbapi20.py`

It stands on the model of `Transaction` and of the server. Of cursors only `execute` of one statement without transaction control is here (see `Model/DbApi` for the rest).
Where Python makes objects, `id` is given from outside.
-/
namespace PG.DbApiConn
open PG PG.Transaction
variable {δ : Type}

/-- What a call does to the caller. -/
inductive Out where
  | ok
  /-- what the transaction or the statement raised -/
  | raised (e : Exc)
  /-- `InterfaceError`: not in autocommit mode -/
  | interfaceError
  /-- `Error`: connection already closed -/
  | alreadyClosed
  deriving DecidableEq, Repr

/-- `self.closed` and the server; `_xact`; `_dbapi_connected_flag`. -/
structure Db (δ : Type) where
  server : Server δ
  xact : Option Tx
  flag : Bool
  deriving DecidableEq, Repr

/-- The end of a call that starts a new transaction: dbapi20.py:341-342, 359-360, 387-388, 401-402. -/
def restart (env : δ → Commit) (id : Nat) (s : Server δ) (flag : Bool) : Out × Db δ :=
  match start env (new .plain id) s with
  | (some e, t, s) => (.raised e, ⟨s, some t, flag⟩)
  | (none, t, s) => (.ok, ⟨s, some t, flag⟩)

/-- dbapi20.py:357-361 `connect`, after `super().connect()` succeeded. -/
def connect (env : δ → Commit) (id : Nat) (s : Server δ) : Out × Db δ :=
  match restart env id s false with
  | (.ok, db) => (.ok, { db with flag := true })
  | r => r

/-- dbapi20.py:331-342 `autocommit_set`. -/
def setAutocommit (env : δ → Commit) (id : Nat) (db : Db δ) (val : Bool) : Out × Db δ :=
  if val then
    match db.xact with
    | none => (.ok, db)
    | some t =>
      match rollback env t db.server with
      | (some e, t, s) => (.raised e, { db with server := s, xact := some t })
      | (none, _, s) => (.ok, { db with server := s, xact := none })
  else
    match db.xact with
    | some _ => (.ok, db)
    | none => restart env id db.server db.flag

/-- dbapi20.py:344-345 `autocommit_get`. -/
def autocommit (db : Db δ) : Bool := db.xact.isNone

/-- dbapi20.py:376-388 `commit`. -/
def commit (env : δ → Commit) (id : Nat) (db : Db δ) : Out × Db δ :=
  match db.xact with
  | none => (.interfaceError, db)
  | some t =>
    match Transaction.commit env t db.server with
    | (some e, t, s) => (.raised e, { db with server := s, xact := some t })
    | (none, _, s) => restart env id s db.flag

/-- dbapi20.py:390-402 `rollback`. -/
def rollback (env : δ → Commit) (id : Nat) (db : Db δ) : Out × Db δ :=
  match db.xact with
  | none => (.interfaceError, db)
  | some t =>
    match Transaction.rollback env t db.server with
    | (some e, t, s) => (.raised e, { db with server := s, xact := some t })
    | (none, _, s) => restart env id s db.flag

/-- dbapi20.py:363-371 `close`, with pq3.py:2362-2385. -/
def close (db : Db δ) : Out × Db δ :=
  if db.server.closed && db.flag then (.alreadyClosed, db)
  else (.ok, { db with flag := true, server := db.server.die })

/-- What a program does with a connection. -/
inductive Op (δ : Type) where
  /-- `cursor.execute` -/
  | stmt (f : δ → Option δ)
  | commit
  | rollback
  | autocommit (val : Bool)
  | close
  /-- not a call: the connection is lost -/
  | die

/-- One call; `id` is the identity of an object made in it. -/
def step (env : δ → Commit) (id : Nat) (db : Db δ) : Op δ → Out × Db δ
  | .stmt f =>
    match execute env db.server (.stmt f) with
    | (some e, s) => (.raised e, { db with server := s })
    | (none, s) => (.ok, { db with server := s })
  | .commit => commit env id db
  | .rollback => rollback env id db
  | .autocommit val => setAutocommit env id db val
  | .close => close db
  | .die => (.ok, { db with server := db.server.die })

/-- The calls in order. -/
def run (env : δ → Commit) (id : Nat) (db : Db δ) : List (Op δ) → List Out × Db δ
  | [] => ([], db)
  | o :: os => ((step env id db o).1 :: (run env (id + 1) (step env id db o).2 os).1, (run env (id + 1) (step env id db o).2 os).2)

end PG.DbApiConn
