import Verif.Model.OptElement3
import Verif.Model.Xact3
/-!
# Model of `protocol/xact3.py` 641-655: rows received with `consume_tuple_messages` of `port/_optimized/element3.c`

Where the extension could be compiled, `Instruction.put_tupledata` is this one (xact3.py:641, the name is defined), and not the one that `Model/Xact3` has. All other states
of the transaction are those of `Model/Xact3`.
-/
namespace PG.OptXact3
open PG PG.Element3 PG.Xact3 PG.OptBuffer PG.OptElement3

/-- The exceptions of C as those of Python (`consume_tuple_messages` raises none but the first). -/
def cErr : CErr → Err
  | .value => .valueError
  | .type => .typeError
  | .overflow => .overflowError
  | .stopIteration => .stopIteration
  | _ => .runtimeError

/-- A row as an item of `completed`. -/
def asRow (l : List (Option Bytes)) : Proc := .elem (.tuple l)

/-- xact3.py:642-655 `put_tupledata`. -/
def putTupledataC (s : Inst) (b : Batch) : Inst × Except Err Nat :=
  match consume b.msgs with
  | .error e => (s, .error (cErr e))
  | .ok [] => standardPut { s with state := .receiving .standardPut } b
  | .ok (t :: r) =>
    ({ s with completed := pushCompleted s.completed b.id ((t :: r).map asRow), lastId := b.id, last1 := s.last2, last2 := s.last2 }, .ok (t :: r).length)

/-- `state[1](messages)` with that method. -/
def deliverC (s : Inst) (b : Batch) : Inst × Except Err Nat :=
  match s.state with
  | .receiving .putTupledata => putTupledataC s b
  | _ => deliver s b

/-- client3.py:271-282, 455-459: what was read is given to the transaction, `self.read = self.read[x.state[1](self.read):]`, until it is used up or the transaction does not receive any more.
What is left is a new tuple every time; the list has the identities of the tuples. Gives the identities that were not needed. -/
def drain (s : Inst) (msgs : List Msg) : List Nat → Inst × Except Err Nat × List Nat
  | [] => (s, .ok 0, [])
  | i :: ids =>
    if Receiving s ∧ msgs ≠ [] then
      match deliverC s ⟨i, msgs⟩ with
      | (s, .error e) => (s, .error e, ids)
      | (s, .ok n) => match drain s (msgs.drop n) ids with
        | (s, r, k) => (s, r.map (n + ·), k)
    else (s, .ok 0, i :: ids)
where
  /-- `x.state[0] is Receiving`. -/
  Receiving (s : Inst) : Bool := match s.state with | .receiving _ => true | _ => false

/-- What is read from the server at once, with the identities of the first tuple and of the one after it. -/
structure Read where
  id : Nat
  rest : Nat
  msgs : List Msg
  deriving DecidableEq, Repr

/-- client3.py:451-459: one read after the other; as `Spec.Xact.feed`: the number of messages taken, or the exception, and the number of reads begun. -/
def feedC (s : Inst) : List Read → Inst × Except Err Nat × Nat
  | [] => (s, .ok 0, 0)
  | b :: bs =>
    if drain.Receiving s then
      match drain s b.msgs [b.id, b.rest] with
      | (s, .error e, _) => (s, .error e, 1)
      | (s, .ok n, _) =>
        match feedC s bs with
        | (s, r, k) => (s, r.map (n + ·), k + 1)
    else (s, .ok 0, 0)

end PG.OptXact3
