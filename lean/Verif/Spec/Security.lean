import Verif.Model.Security
/-!
# What a secured connection promises
-/
namespace PG.Spec.Security
open PG PG.Security

/-- The factories of a connector with these parameters after any number of attempts, whatever was on the disk and whatever the servers did. -/
inductive Reach (s : Secure) : Factory → Prop
  | new : Reach s (Factory.new s)
  | used {f : Factory} (d : Disk) (p : Peer) : Reach s f → Reach s (secure f d p).2

/-- The servers' handshakes in this world are those of factories of the connector. -/
def Feasible (s : Secure) (world : List PG.Establish.Wire → PG.Establish.World) : Prop :=
  ∀ wire, (world wire).secure = true → ∃ f d p, Reach s f ∧ ((secure f d p).1).isSome = true

/-- The socket is closed at the end: no operation after `close`, and `close` was done. -/
def Closed (ops : List Op) : Prop := ops.getLast? = some .close

end PG.Spec.Security
