import Verif.Model.Client3
/-!
# Vocabulary for the statements about connections

Histories of a connection: any interleaving of the user's calls, with any behaviour of the socket, and with transactions that
are any objects.
-/
namespace PG.Spec.Client
open PG PG.Element3 PG.Xact3 PG.Client3

/-- What can happen to a connection. -/
inductive Op (X : Type) where
  /-- the coming behaviour of the socket becomes known -/
  | sock (sends : List SendEv) (recvs : List RecvEv)
  /-- the user gives a sending transaction something else to send -/
  | give (x : X)
  | push (f : Finalizers) (fuel : Nat) (x : X)
  | step
  | complete (fuel : Nat)
  | synchronize (fuel : Nat)
  | trashCursor (i : Bytes)
  | trashStatement (i : Bytes)

variable {X : Type}

/-- The connection after an operation; `give` has no effect unless the transaction is sending and stays so. -/
def apply (o : Ops X) (c : Conn X) : Op X → Conn X
  | .sock s r => { c with sends := c.sends ++ s, recvs := c.recvs ++ r }
  | .give x => match c.xact with
    | some y => if o.dir y = .sending ∧ o.dir x = .sending then { c with xact := some x } else c
    | none => c
  | .push f n x => (push o f n c x).1
  | .step => (step o c).1
  | .complete n => (complete o n c).1
  | .synchronize n => (synchronize o n c).1
  | .trashCursor i => trashCursor c i
  | .trashStatement i => trashStatement c i

/-- The connection after a history, starting with negotiation transaction `x`. -/
def run (o : Ops X) (x : X) (ops : List (Op X)) : Conn X := ops.foldl (apply o) { xact := some x }

/-- Leave out the objects that come immediately after the same object; `p` is the one before the list. -/
def squeezeFrom (p : Option OId) : List Obj → List Obj
  | [] => []
  | a :: l => if p = some a.id then squeezeFrom p l else a :: squeezeFrom (some a.id) l

/-- Leave out the objects that come immediately after the same object. -/
def squeeze (l : List Obj) : List Obj := squeezeFrom none l

/-- The bytes of a sequence of messages that can be serialized. -/
def bytesOf (m : Obj) : Bytes := match catMessages m.items with | .ok d => d | .error _ => []

/-- The sequence can be serialized. -/
def Serializable (m : Obj) : Bool := (catMessages m.items).isOk

/-- What a connection expects of its transactions: marking one as failed makes it complete and fatal. -/
structure Lawful (o : Ops X) : Prop where
  fail_fatal : ∀ x, o.fatal (o.fail x) = true
  fail_complete : ∀ x, o.dir (o.fail x) = .complete

/-- The portals a list of commands closes. -/
def portalsClosed (l : List Elem) : List Bytes := l.filterMap (fun | .str .closePortal i => some i | _ => none)
/-- The statements a list of commands closes. -/
def statementsClosed (l : List Elem) : List Bytes := l.filterMap (fun | .str .closeStatement i => some i | _ => none)

end PG.Spec.Client
