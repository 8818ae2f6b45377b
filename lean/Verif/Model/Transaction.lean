import Verif.Model.Py
/-!
# Model of `Transaction` in `postgresql/driver/pq3.py`

The server is modelled by what PostgreSQL documents for transaction blocks and savepoints; `δ` is what the database holds. A statement is a function on it
that may fail; it contains no transaction control. Whether COMMIT succeeds (deferred constraints, serialization failures, a lost connection) is decided by
`Env`. A connection may be lost at any time (`Prog.die`).
-/
namespace PG.Transaction
open PG
variable {δ : Type}

/-- What COMMIT does. -/
inductive Commit where
  | ok
  /-- an error; `active` when it is `ActiveTransactionError` -/
  | error (active : Bool)
  /-- the connection is lost; `done` when the server had committed -/
  | lost (done : Bool)

/-- The exceptions of Python, as far as `__exit__` distinguishes them. -/
inductive Exc where
  | error
  | activeTransaction
  /-- not a subclass of `Exception`: `KeyboardInterrupt`, `GeneratorExit`, `SystemExit` -/
  | base
  deriving DecidableEq, Repr

/-- `issubclass(typ, Exception)`. -/
def Exc.isException : Exc → Bool
  | .base => false
  | _ => true

/-- The server's transaction status: `pq.state`. -/
inductive Status where
  /-- b'I' -/
  | idle
  /-- b'T' -/
  | active
  /-- b'E' -/
  | failed
  deriving DecidableEq, Repr

/-- The server, and whether the connection to it is closed. `current` counts in a transaction block only; `stack` has the savepoints, the newest first. -/
structure Server (δ : Type) where
  committed : δ
  status : Status
  current : δ
  stack : List (Nat × δ)
  closed : Bool
  deriving DecidableEq, Repr

/-- What is sent. -/
inductive Cmd (δ : Type) where
  /-- `START TRANSACTION...;`; `false` when the server does not accept the isolation level or mode -/
  | start (accepted : Bool)
  /-- `SAVEPOINT "xact(<id>)";` -/
  | savepoint (id : Nat)
  /-- `RELEASE "xact(<id>)";` -/
  | release (id : Nat)
  /-- `ROLLBACK TO "xact(<id>)"; RELEASE "xact(<id>)";` -/
  | rollbackTo (id : Nat)
  /-- `COMMIT` -/
  | commit
  /-- `ABORT;` -/
  | abort
  /-- anything else -/
  | stmt (f : δ → Option δ)

/-- The savepoint of that name that was set last, and what is below it. -/
def find (id : Nat) : List (Nat × δ) → Option (δ × List (Nat × δ))
  | [] => none
  | (n, d) :: l => if n = id then some (d, l) else find id l

/-- In a transaction block an error makes the block fail. -/
def Server.fail (s : Server δ) : Server δ := { s with status := if s.status = .idle then .idle else .failed }

/-- The connection is lost: what is not committed is gone. -/
def Server.die (s : Server δ) : Server δ := { s with closed := true }

/-- pq3.py:2310-2317 `Connection.execute`, with the server. -/
def execute (env : δ → Commit) (s : Server δ) (c : Cmd δ) : Option Exc × Server δ :=
  if s.closed then (some .error, s)
  else match c with
    | .start accepted =>
      match s.status with
      | .idle => if accepted then (none, { s with status := .active, current := s.committed, stack := [] }) else (some .error, s)
      | .active => (none, s)
      | .failed => (some .error, s)
    | .savepoint id =>
      match s.status with
      | .active => (none, { s with stack := (id, s.current) :: s.stack })
      | _ => (some .error, s.fail)
    | .release id =>
      match s.status with
      | .active =>
        match find id s.stack with
        | some (_, l) => (none, { s with stack := l })
        | none => (some .error, s.fail)
      | _ => (some .error, s.fail)
    | .rollbackTo id =>
      match s.status with
      | .idle => (some .error, s)
      | _ =>
        match find id s.stack with
        | some (d, l) => (none, { s with status := .active, current := d, stack := l })
        | none => (some .error, s.fail)
    | .commit =>
      match s.status with
      | .idle => (none, s)
      | .failed => (none, { s with status := .idle, stack := [] })
      | .active =>
        match env s.current with
        | .ok => (none, { s with status := .idle, committed := s.current, stack := [] })
        | .error active => (some (if active then .activeTransaction else .error), { s with status := .idle, stack := [] })
        | .lost done => (some .error, { s with committed := if done then s.current else s.committed, closed := true })
    | .abort => (none, { s with status := .idle, stack := [] })
    | .stmt f =>
      match s.status with
      | .idle =>
        match f s.committed with
        | some d => (none, { s with committed := d })
        | none => (some .error, s)
      | .active =>
        match f s.current with
        | some d => (none, { s with current := d })
        | none => (some .error, s.fail)
      | .failed => (some .error, s)

/-! ## Transaction objects -/

/-- `isolation` and `mode`. -/
inductive Conf where
  /-- both are `None` -/
  | plain
  /-- the server accepts them -/
  | good
  /-- the server does not accept them -/
  | bad
  /-- one has a semicolon: `_start_xact_string` raises `ValueError` (pq3.py:2156-2166) -/
  | semicolon
  deriving DecidableEq, Repr

/-- `Transaction.state`. -/
inductive State where
  | initialized
  | opened
  | committed
  | aborted
  deriving DecidableEq, Repr

/-- `Transaction.type`. -/
inductive Kind where
  | block
  | savepoint
  deriving DecidableEq, Repr

/-- pq3.py:2111-2116: a `Transaction`; `id` stands for `id(self)`. -/
structure Tx where
  conf : Conf
  id : Nat
  state : State
  kind : Option Kind
  deriving DecidableEq, Repr

/-- pq3.py:2111-2116 `Transaction.__init__`. -/
def new (conf : Conf) (id : Nat) : Tx := ⟨conf, id, .initialized, none⟩

/-- pq3.py:2155-2166 `Transaction._start_xact_string`. -/
def startString (isolation mode : Option Str) : Option Str :=
  match isolation with
  | some i => if ';' ∈ i then none else
    match mode with
    | some m => if ';' ∈ m then none else some ("START TRANSACTION ISOLATION LEVEL ".toList ++ i ++ [' '] ++ m ++ [';'])
    | none => some ("START TRANSACTION ISOLATION LEVEL ".toList ++ i ++ [';'])
  | none =>
    match mode with
    | some m => if ';' ∈ m then none else some ("START TRANSACTION ".toList ++ m ++ [';'])
    | none => some ("START TRANSACTION".toList ++ [';'])

/-- pq3.py:2172-2203 `Transaction.start`. -/
def start (env : δ → Commit) (t : Tx) (s : Server δ) : Option Exc × Tx × Server δ :=
  if t.state = .opened then (none, t, s)
  else if t.state ≠ .initialized then (some .error, t, s)
  else if s.status = .idle then
    let t := { t with kind := some .block }
    if t.conf = .semicolon then (some .error, t, s)
    else
      match execute env s (.start (t.conf ≠ .bad)) with
      | (some e, s) => (some e, t, s)
      | (none, s) => (none, { t with state := .opened }, s)
  else
    let t := { t with kind := some .savepoint }
    if t.conf ≠ .plain then (some .error, t, s)
    else
      match execute env s (.savepoint t.id) with
      | (some e, s) => (some e, t, s)
      | (none, s) => (none, { t with state := .opened }, s)

/-- pq3.py:2215-2218: the end of a transaction. -/
def endCmd (t : Tx) : Cmd δ := if t.kind = some .block then .commit else .release t.id

/-- pq3.py:2210-2226 `Transaction.commit`. -/
def commit (env : δ → Commit) (t : Tx) (s : Server δ) : Option Exc × Tx × Server δ :=
  if t.state = .committed then (none, t, s)
  else if t.state ≠ .opened then (some .error, t, s)
  else
    match execute env s (endCmd t) with
    | (some e, s) => (some e, t, s)
    | (none, s) => (none, { t with state := .committed }, s)

/-- pq3.py:2232-2250 `Transaction.rollback`. -/
def rollback (env : δ → Commit) (t : Tx) (s : Server δ) : Option Exc × Tx × Server δ :=
  if t.state = .aborted then (none, t, s)
  else if t.state ≠ .opened then (some .error, t, s)
  else
    match t.kind with
    | none => (some .error, t, s)
    | some k =>
      match execute env s (match k with | .block => .abort | .savepoint => .rollbackTo t.id) with
      | (some e, s) => (some e, t, s)
      | (none, s) => (none, { t with state := .aborted }, s)

/-- pq3.py:2122-2153 `Transaction.__exit__`, with what the block raised; what is raised after it. -/
def exit (env : δ → Commit) (t : Tx) (s : Server δ) : Option Exc → Option Exc × Server δ
  | none =>
    if s.status = .failed then
      if ¬ s.closed then
        match rollback env t s with
        | (some e, _, s) => (some e, s)
        | (none, _, s) => (some .error, s)
      else (some .error, s)
    else
      match commit env t s with
      | (some .activeTransaction, t, s) =>
        if ¬ s.closed then
          match rollback env { t with state := .opened } s with
          | (some e, _, s) => (some e, s)
          | (none, _, s) => (some .activeTransaction, s)
        else (some .activeTransaction, s)
      | (e, _, s) => (e, s)
  | some e =>
    if e.isException then
      if ¬ s.closed then
        match rollback env t s with
        | (some e', _, s) => (some e', s)
        | (none, _, s) => (some e, s)
      else (some e, s)
    else (some e, s)

/-! ## Programs -/

/-- A program that uses one connection. -/
inductive Prog (δ : Type) where
  | skip
  /-- `db.execute(...)` -/
  | stmt (f : δ → Option δ)
  /-- `raise` of an `Exception` -/
  | raise
  /-- an exception that is not an `Exception` -/
  | interrupt
  /-- the connection is lost -/
  | die
  | seq (p q : Prog δ)
  /-- `try: p` `except Exception: q` -/
  | tryExcept (p q : Prog δ)
  /-- `with db.xact(...): p` -/
  | block (conf : Conf) (id : Nat) (p : Prog δ)

/-- What a program does; what it raises. -/
def exec (env : δ → Commit) : Prog δ → Server δ → Option Exc × Server δ
  | .skip, s => (none, s)
  | .stmt f, s => execute env s (.stmt f)
  | .raise, s => (some .error, s)
  | .interrupt, s => (some .base, s)
  | .die, s => (some .error, s.die)
  | .seq p q, s =>
    match exec env p s with
    | (none, s) => exec env q s
    | r => r
  | .tryExcept p q, s =>
    match exec env p s with
    | (some e, s) => if e.isException then exec env q s else (some e, s)
    | r => r
  | .block conf id p, s =>
    match start env (new conf id) s with
    | (some e, _, s) => (some e, s)
    | (none, t, s) => exit env t (exec env p s).2 (exec env p s).1

end PG.Transaction
