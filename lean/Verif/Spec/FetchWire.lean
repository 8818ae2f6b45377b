import Verif.Model.FetchWire
import Verif.Proofs.PBuffer
/-!
# What a socket gives to a result stream
-/
namespace PG.Spec.FetchWire
open PG PG.Element3 PG.Xact3 PG.Client3

/-- What the coming calls of `recv` give, together. -/
def bytesOf : List RecvEv → Bytes
  | [] => []
  | .data d :: evs => d ++ bytesOf evs
  | .err _ :: evs => bytesOf evs

/-- The socket gives data, not nothing, or says to try again. -/
def Calm (evs : List RecvEv) : Prop := ∀ e ∈ evs, e = .err .tryAgain ∨ ∃ d, e = .data d ∧ d ≠ []

/-- A connection after the commands of the transaction `s0` were sent: nothing of the answer was read. -/
structure Asked (c : Conn IX) (s0 : Inst) : Prop where
  xact : ∃ oid user, c.xact = some ⟨sent s0, oid, user⟩
  read : c.read.msgs = []
  data : c.readData = none
  inv : c.stream.start ≤ c.stream.strio.buf.length
  unread : c.stream.strio.buf.drop c.stream.start = []
  nextId : 0 < c.nextId

end PG.Spec.FetchWire
