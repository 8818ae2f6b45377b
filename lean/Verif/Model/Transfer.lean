import Verif.Model.CopyTo
import Verif.Model.CopyReceiver
/-!
# Model of `postgresql/copyman.py`: `CopyManager.run` (and so `transfer`) from a `COPY ... TO STDOUT` to any number of `COPY ... FROM STDIN`

The producer is the one of `CopyTo`, the receivers are those of `CopyReceiver`, each on a connection of its own.  The manager transforms nothing, as all of them speak the protocol
(copyman.py:112-142; the transformer is in `CopyManager`).

Simplified: the `ElementSet` of receivers is a list, in the order in which the set is iterated over; a receiver that was discarded stays in its place, marked.  Not modelled: the numbers for
the progress, and interrupts while the producer is at work.
-/
namespace PG.Transfer
open PG PG.Client3 PG.Lifecycle PG.CopyReceiver

/-- A destination: the connection, and the statement to load with. -/
structure Dest where
  db : Db
  fin : Finalizers := {}
  fuel : Nat
  stmt : Bytes

/-- A receiver, whether it is in the set, and how leaving it ended (the exceptions are in `CopyFail.receiver_faults`, copyman.py:735-748). -/
structure Slot where
  rcv : Rcv
  active : Bool := true
  left : Option Lifecycle.Outcome := none

/-- copyman.py:674-684: the manager. -/
structure Mgr where
  prod : CopyTo.SP
  slots : List Slot
  seen : Bool := false

/-- How a part of the work ended. -/
inductive Svc where | ok | stop | producerFault | receiverFault | blocked | interrupted
  deriving DecidableEq, Repr

/-- `if not self.receivers` (copyman.py:725, 767). -/
def noneLeft (m : Mgr) : Bool := m.slots.all fun s => !s.active

/-- copyman.py:764-783 `_service_producer`. -/
def serviceProducer (m : Mgr) : Mgr × Svc :=
  if noneLeft m then (m, .stop)
  else match CopyTo.next m.prod with
    | (.view v, p) => ({ m with prod := p, slots := m.slots.map fun s => if s.active then { s with rcv := accept v s.rcv } else s }, .ok)
    | (.stop, p) => ({ m with prod := p, seen := true }, .stop)
    | (.raised, p) => ({ m with prod := p }, .producerFault)
    | (.blocked, p) => ({ m with prod := p }, .blocked)

/-- copyman.py:785-798 `_service_receivers`: every receiver is asked to transmit; those that raise an `Exception` are discarded at the end. -/
def serveAll : List Slot → List Slot × Svc
  | [] => ([], .ok)
  | s :: ss =>
    if s.active then
      match transmit s.rcv with
      | (r, .ret ()) => match serveAll ss with | (ss, v) => ({ s with rcv := r } :: ss, v)
      | (r, .blocked) => ({ s with rcv := r } :: ss, .blocked)
      | (r, .raised (.sock .interrupt)) => ({ s with rcv := r } :: ss, .interrupted)
      | (r, .raised _) => match serveAll ss with | (ss, v) => ({ rcv := r, active := false } :: ss, if v = .ok then .receiverFault else v)
    else match serveAll ss with | (ss, v) => (s :: ss, v)

/-- copyman.py:785-798 `_service_receivers`. -/
def serviceReceivers (m : Mgr) : Mgr × Svc := match serveAll m.slots with | (ss, v) => ({ m with slots := ss }, v)

/-- copyman.py:803-805: the loop of `run`. -/
def loop : Nat → Mgr → Mgr × Svc
  | 0, m => (m, .blocked)
  | fuel + 1, m =>
    match serviceProducer m with
    | (m, .ok) => match serviceReceivers m with
      | (m, .ok) => loop fuel m
      | r => r
    | r => r

/-- copyman.py:694-696: the receivers are entered; an `Exception` of one ends it. -/
def enterAll : List Dest → List Slot × Svc
  | [] => ([], .ok)
  | d :: ds =>
    match enter d.fin d.fuel d.stmt { db := d.db } with
    | (r, .ok) => match enterAll ds with | (ss, v) => ({ rcv := r } :: ss, v)
    | (r, .blocked) => ({ rcv := r } :: ds.map (fun d => { rcv := { db := d.db } }), .blocked)
    | (r, .raised (.sock .interrupt)) => ({ rcv := r } :: ds.map (fun d => { rcv := { db := d.db } }), .interrupted)
    | (r, _) => ({ rcv := r } :: ds.map (fun d => { rcv := { db := d.db } }), .receiverFault)

/-- copyman.py:735-740: those in the set are left; the exceptions are collected. -/
def exitAll (fuel : Nat) (t : Typ) : List Slot → List Slot × Svc
  | [] => ([], .ok)
  | s :: ss =>
    if s.active then
      match exit fuel t s.rcv with
      | (r, .ok) => match exitAll fuel t ss with | (ss, v) => ({ s with rcv := r, left := some .ok } :: ss, v)
      | (r, .blocked) => ({ s with rcv := r, left := some .blocked } :: ss, .blocked)
      | (r, .raised (.sock .interrupt)) => ({ s with rcv := r, left := some (.raised (.sock .interrupt)) } :: ss, .interrupted)
      | (r, o) => match exitAll fuel t ss with | (ss, v) => ({ s with rcv := r, left := some o } :: ss, if v = .ok then .receiverFault else v)
    else match exitAll fuel t ss with | (ss, v) => (s :: ss, v)

/-- How `run` ends: it returns, raises `CopyFail` (`inside`: an exception had been raised in the block), never ends, or is interrupted. -/
inductive Outcome where | done | failed (inside : Bool) | blocked | interrupted
  deriving DecidableEq, Repr

/-- copyman.py:724-748: the rest of `__exit__`, the producer having been left. -/
def finish (fuel : Nat) (exc profail : Bool) (m : Mgr) : Mgr × Outcome :=
  if noneLeft m then (m, .failed exc)
  else match exitAll fuel (if exc then .exception else .none) m.slots with
    | (ss, .blocked) => ({ m with slots := ss }, .blocked)
    | (ss, .interrupted) => ({ m with slots := ss }, .interrupted)
    | (ss, v) => ({ m with slots := ss }, if exc || v ≠ .ok || profail || !m.seen then .failed exc else .done)

/-- copyman.py:699-748 `__exit__`, with an `Exception` or without. -/
def leave (fuel : Nat) (exc : Bool) (m : Mgr) : Mgr × Outcome :=
  match CopyTo.realigned m.prod with
  | .error _ => finish fuel exc true m
  | .ok p => match serviceProducer { m with prod := p } with
    | (m, .blocked) => (m, .blocked)
    | (m, .producerFault) => finish fuel exc true m
    | (m, _) => match CopyTo.exit m.prod with
      | (.fine, p) => finish fuel exc false { m with prod := p }
      | (.raised, p) => finish fuel exc true { m with prod := p }
      | (.blocked, p) => ({ m with prod := p }, .blocked)

/-- copyman.py:686-697 and 800-808: `run`, the producer having been entered.  An interrupt goes through everything (704-706). -/
def run (fuel : Nat) (p : CopyTo.SP) (dests : List Dest) : Mgr × Outcome :=
  match enterAll dests with
  | (ss, .blocked) => (⟨p, ss, false⟩, .blocked)
  | (ss, .interrupted) => (⟨p, ss, false⟩, .interrupted)
  | (ss, .ok) => match loop fuel ⟨p, ss, false⟩ with
    | (m, .blocked) => (m, .blocked)
    | (m, .interrupted) => (m, .interrupted)
    | (m, .stop) => leave fuel false m
    | (m, _) => leave fuel true m
  | (ss, _) => leave fuel true ⟨p, ss, false⟩

end PG.Transfer
