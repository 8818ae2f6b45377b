import Verif.Model.Py
/-!
# Model of `postgresql/alock.py`

The statements `try_advisory_*`, `acquire_advisory_*` and `release_advisory_*` of lib/libsys.sql are modelled by what the server does with them: it
keeps, per session, how often each lock is held in each mode (`pg_advisory_lock` and friends; session locks survive errors and rollbacks). What
other sessions do shows in the answers of the server, which are arbitrary. Lock identifiers are integers and pairs of integers.
-/
namespace PG.ALock
open PG

/-- A lock identifier: `int` or a pair. -/
inductive Ident where
  | int (n : Int)
  | pair (a b : Int)
  deriving DecidableEq, Repr

/-- `ALock.mode`. -/
inductive Mode where
  | share
  | exclusive
  deriving DecidableEq, Repr

/-- What is sent to the server, lock by lock. -/
inductive Call where
  | lock (k : Ident) (m : Mode)
  | unlock (k : Ident) (m : Mode)
  deriving DecidableEq, Repr

/-- alock.py:53-64 `_split_lock_identifiers`: the pairs, `[None, None]` for integers. -/
def idPairs (l : List Ident) : List (Option Int × Option Int) := l.map fun | .int _ => (none, none) | .pair a b => (some a, some b)

/-- alock.py:60-63: the integers, `None` for pairs. -/
def ids (l : List Ident) : List (Option Int) := l.map fun | .int n => some n | .pair _ _ => none

/-- lib/libsys.sql:275-341: the lock in row `i`: `CASE WHEN $2[i] IS NULL THEN lock($1[i][1], $1[i][2]) ELSE lock($2[i]) END`. With a NULL in it
the function of two arguments is not called. -/
def rowKey : (Option Int × Option Int) × Option Int → Option Ident
  | (_, some n) => some (.int n)
  | ((some a, some b), none) => some (.pair a b)
  | _ => none

/-- lib/libsys.sql:284: the locks of all rows. -/
def sqlKeys (pairs : List (Option Int × Option Int)) (ids : List (Option Int)) : List Ident := (pairs.zip ids).filterMap rowKey

/-- The locks this session holds, and the log of what it asked for. -/
structure Session where
  held : Ident → Mode → Nat
  log : List Call
  closed : Bool

/-- `pg_advisory_lock` when granted. -/
def Session.grant (s : Session) (m : Mode) (k : Ident) : Session :=
  { s with held := fun k' m' => if k' = k ∧ m' = m then s.held k' m' + 1 else s.held k' m', log := s.log ++ [.lock k m] }

/-- `pg_advisory_unlock`: gives up the lock once, if it is held. -/
def Session.drop (s : Session) (m : Mode) (k : Ident) : Session :=
  { s with held := fun k' m' => if k' = k ∧ m' = m then s.held k' m' - 1 else s.held k' m', log := s.log ++ [.unlock k m] }

/-- The locks granted among these. -/
def grants (m : Mode) (s : Session) (l : List Ident) : Session := l.foldl (fun s k => s.grant m k) s
/-- These locks given up. -/
def drops (m : Mode) (s : Session) (l : List Ident) : Session := l.foldl (fun s k => s.drop m k) s

/-- alock.py:15-137: an `ALock` object. -/
structure Lock where
  mode : Mode
  identifiers : List Ident
  count : Nat

/-- What a call gives. -/
inductive Out where
  | ret (b : Bool)
  | none
  /-- `RuntimeError("cannot release un-acquired lock")` -/
  | runtimeError
  /-- an error from the server or the connection -/
  | raised
  deriving DecidableEq, Repr

/-- What the server answers: whether it grants the locks that are tried, in turn; or, when waiting, how many locks it grants before it raises an
error (a deadlock, a cancelled statement), `none` when it grants all. -/
structure Answer where
  tried : List Bool
  failAt : Option Nat

/-- `try_advisory_*`: the locks granted. -/
def trySome (m : Mode) (s : Session) : List (Ident × Bool) → Session
  | [] => s
  | (k, b) :: l => trySome m (if b then s.grant m k else s) l

/-- alock.py:65-95 `ALock.acquire`. -/
def acquire (l : Lock) (s : Session) (blocking : Bool) (a : Answer) : Out × Lock × Session :=
  if l.count = 0 then
    if s.closed then (.raised, l, s)
    else if blocking then
      match a.failAt with
      | some n => (.raised, l, grants l.mode s ((sqlKeys (idPairs l.identifiers) (ids l.identifiers)).take n))
      | none => (.ret true, { l with count := l.count + 1 }, grants l.mode s (sqlKeys (idPairs l.identifiers) (ids l.identifiers)))
    else
      let s' := trySome l.mode s ((sqlKeys (idPairs l.identifiers) (ids l.identifiers)).zip a.tried)
      let releaseSeq := ((a.tried.zip l.identifiers).filter Prod.fst).map Prod.snd
      if releaseSeq.length ≠ l.identifiers.length then
        (.ret false, l, drops l.mode s' (sqlKeys (idPairs releaseSeq.reverse) (ids releaseSeq.reverse)))
      else (.ret true, { l with count := l.count + 1 }, s')
  else (.ret true, { l with count := l.count + 1 }, s)

/-- alock.py:101-112 `ALock.release`. -/
def release (l : Lock) (s : Session) : Out × Lock × Session :=
  if l.count < 1 then (.runtimeError, l, s)
  else if ¬ s.closed ∧ l.count > 0 then
    (.none, { l with count := l.count - 1 }, drops l.mode s (sqlKeys (idPairs l.identifiers).reverse (ids l.identifiers).reverse))
  else (.none, { l with count := l.count - 1 }, s)

/-- alock.py:117-122 `ALock.locked`. -/
def locked (l : Lock) (s : Session) : Bool := decide (l.count > 0) && !s.closed

/-- The connection is closed: the server gives up the locks of the session. -/
def Session.close (s : Session) : Session := { s with held := fun _ _ => 0, closed := true }

/-! ## Several objects on one connection -/

/-- The connection and the lock objects made for it. -/
structure State where
  session : Session
  locks : List Lock

/-- alock.py:128-137 `ALock.__init__` for every object, on a new connection. -/
def start (l : List (Mode × List Ident)) : State := ⟨⟨fun _ _ => 0, [], false⟩, l.map fun x => ⟨x.1, x.2, 0⟩⟩

/-- What the program does. -/
inductive Op where
  | acquire (i : Nat) (blocking : Bool) (a : Answer)
  | release (i : Nat)
  | close

/-- One operation. -/
def step (st : State) : Op → Out × State
  | .acquire i b a =>
    match st.locks[i]? with
    | none => (.none, st)
    | some l => let r := acquire l st.session b a; (r.1, ⟨r.2.2, st.locks.set i r.2.1⟩)
  | .release i =>
    match st.locks[i]? with
    | none => (.none, st)
    | some l => let r := release l st.session; (r.1, ⟨r.2.2, st.locks.set i r.2.1⟩)
  | .close => (.none, ⟨st.session.close, st.locks⟩)

/-- A program. -/
def run (st : State) : List Op → List Out × State
  | [] => ([], st)
  | o :: os => ((step st o).1 :: (run (step st o).2 os).1, (run (step st o).2 os).2)

end PG.ALock
