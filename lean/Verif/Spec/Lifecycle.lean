import Verif.Model.Lifecycle
/-!
# Vocabulary for the statements about the life of a connection
-/
namespace PG.Spec.Lifecycle
open PG PG.Element3 PG.Xact3 PG.Client3 PG.Lifecycle

/-- What the rest of the driver and the user do with a connection. -/
inductive Call where
  /-- the coming behaviour of the socket becomes known -/
  | sock (sends : List SendEv) (recvs : List RecvEv)
  /-- start a protocol transaction -/
  | push (f : Finalizers) (fuel : Nat) (cmds : List Elem)
  /-- finish the running protocol transaction -/
  | complete (fuel : Nat)
  /-- one step of the running protocol transaction -/
  | step
  /-- force a synchronization (loading rows) -/
  | synchronize (fuel : Nat)
  /-- COPY data, or the end of the data, for the running transaction -/
  | give (m : Option (Nat × List Item))
  | trashCursor (i : Bytes)
  | trashStatement (i : Bytes)
  | close (f : Finalizers) (fuel : Nat)
  | connect (r : Established)

/-- Change the protocol connection, if there is one. -/
def onConn (f : Conn Y → Conn Y) (db : Db) : Db :=
  match db.pq with
  | .conn c => { db with pq := .conn (f c) }
  | _ => db

/-- One call. -/
def call (db : Db) : Call → Db × Outcome
  | .sock s r => (onConn (fun c => { c with sends := c.sends ++ s, recvs := c.recvs ++ r }) db, .ok)
  | .push f n cmds => pqStart f n db cmds
  | .complete n => pqComplete n db
  | .step => pqStep db
  | .synchronize n => pqSynchronize n db
  | .give m => (pqGive m db, .ok)
  | .trashCursor i => (onConn (trashCursor · i) db, .ok)
  | .trashStatement i => (onConn (trashStatement · i) db, .ok)
  | .close f n => close f n db
  | .connect r => connect r db

/-- Several calls, and how each ended. -/
def calls (db : Db) : List Call → Db × List (Call × Outcome)
  | [] => (db, [])
  | a :: as => match call db a with
    | (d, o) => match calls d as with
      | (e, l) => (e, (a, o) :: l)

/-- The calls that need the server. -/
def needsServer : Call → Bool
  | .push _ _ _ | .complete _ | .step | .connect _ => true
  | _ => false

/-- The protocol connection. -/
def connOf (db : Db) : Option (Conn Y) :=
  match db.pq with
  | .conn c => some c
  | _ => none

/-- What reached the server. -/
def wire (db : Db) : Bytes := match connOf db with | some c => c.wire | none => []
/-- What came from the server. -/
def received (db : Db) : Bytes := match connOf db with | some c => c.received | none => []

/-- The transaction was marked as failed fatally, but was set to go on by a step that did not notice (see
`C15_step_revives_failed`). -/
def HalfFailed (db : Db) : Prop := ∃ c x, connOf db = some c ∧ c.xact = some x ∧ fatalOf x = some true ∧ dbOps.dir x ≠ .complete

/-- A connection whose negotiation is done: what the socket will do is open, nothing was exchanged since, `st` is the status.
Simplification: nothing is left over from the negotiation. -/
def established (s : List SendEv) (r : List RecvEv) (st : Bytes) : Db := { pq := .conn { xact := none, sends := s, recvs := r, state := st } }

/-- The Terminate message of the protocol: type `X`, length 4. -/
def terminate : Bytes := [88, 0, 0, 0, 4]

end PG.Spec.Lifecycle
