import Verif.Model.Transfer
/-!
# Model of `postgresql/copyman.py`: iterating over a `CopyManager`, and `reconcile`

The user's own loop: `next(manager)` returns the progress; a `ReceiverFault` is caught, a receiver may be put back, the iteration goes on.  It ends with `StopIteration`, with a
`ProducerFault`, or with an interrupt.
-/
namespace PG.Manager
open PG PG.Client3 PG.CopyReceiver PG.Transfer

/-- The manager and its `_stats` (copyman.py:687). -/
structure Ses where
  mgr : Mgr
  stats : Int × Int := (0, 0)

/-- What an operation does: `next` returns the progress, raises `StopIteration`, `ProducerFault`, or `ReceiverFault` with these receivers; `reconcile` returns, or raises. -/
inductive Out where
  | progress (messages bytes : Int)
  | stop
  | producerFault
  | receiverFault (dropped : List Nat)
  | reconciled
  | raised
  | blocked
  | interrupted
  deriving DecidableEq, Repr

/-- The receivers that were in the set and are not in it any more. -/
def droppedOf (ss ss' : List Slot) : List Nat :=
  (List.range ss.length).filter fun i => match ss[i]?, ss'[i]? with | some s, some s' => s.active && !s'.active | _, _ => false

/-- copyman.py:813-827 `__next__`. -/
def next (x : Ses) : Ses × Out :=
  match serviceProducer x.mgr with
  | (m, .ok) =>
    let stats := (x.stats.1 + (m.prod.prod.totalMessages - x.mgr.prod.prod.totalMessages), x.stats.2 + (m.prod.prod.totalBytes - x.mgr.prod.prod.totalBytes))
    match serviceReceivers m with
    | (m', .ok) => ({ mgr := m', stats := (0, 0) }, .progress stats.1 stats.2)
    | (m', .receiverFault) => ({ mgr := m', stats := stats }, .receiverFault (droppedOf m.slots m'.slots))
    | (m', .blocked) => ({ mgr := m', stats := stats }, .blocked)
    | (m', _) => ({ mgr := m', stats := stats }, .interrupted)
  | (m, .stop) => ({ x with mgr := m }, .stop)
  | (m, .blocked) => ({ x with mgr := m }, .blocked)
  | (m, _) => ({ x with mgr := m }, .producerFault)

/-- copyman.py:750-762 `reconcile`; the protocol is always one of those of the manager. -/
def reconcile (i : Nat) (x : Ses) : Ses × Out :=
  match x.mgr.slots[i]? with
  | none => (x, .raised)
  | some s => match transmit s.rcv with
    | (r, .ret ()) => ({ x with mgr := { x.mgr with slots := x.mgr.slots.set i { s with rcv := r, active := true } } }, .reconciled)
    | (r, .blocked) => ({ x with mgr := { x.mgr with slots := x.mgr.slots.set i { s with rcv := r } } }, .blocked)
    | (r, .raised (.sock .interrupt)) => ({ x with mgr := { x.mgr with slots := x.mgr.slots.set i { s with rcv := r } } }, .interrupted)
    | (r, .raised _) => ({ x with mgr := { x.mgr with slots := x.mgr.slots.set i { s with rcv := r } } }, .raised)

/-- What the user does. -/
inductive Act where | next | reconcile (i : Nat)
  deriving DecidableEq, Repr

/-- One of these: copyman.py:813-827 `__next__`, 750-762 `reconcile`. -/
def act (x : Ses) : Act → Ses × Out
  | .next => next x
  | .reconcile i => reconcile i x

/-- Whether the user can go on. -/
def goesOn : Out → Bool
  | .progress _ _ | .receiverFault _ | .reconciled | .raised => true
  | _ => false

/-- The user's loop: these operations, up to the first after which one cannot go on; what they did. -/
def session (x : Ses) : List Act → Ses × List Out
  | [] => (x, [])
  | a :: as => match act x a with
    | (x', o) => if goesOn o then ((session x' as).1, o :: (session x' as).2) else (x', [o])

end PG.Manager
