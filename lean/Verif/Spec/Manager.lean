import Verif.Model.Manager
/-!
# Specification of C75: when receivers are put back, and the sum of the progress
-/
namespace PG.Spec.Manager
open PG PG.Manager

/-- `reconcile` is used on receivers that are in the set, or that were dropped by the latest `next`. -/
def Timely : List Nat → Ses → List Act → Prop
  | _, _, [] => True
  | _, x, .next :: as => match next x with
    | (x', .receiverFault l) => Timely l x' as
    | (x', _) => Timely [] x' as
  | l, x, .reconcile i :: as => (i ∈ l ∨ ∃ s, x.mgr.slots[i]? = some s ∧ s.active = true) ∧ Timely l (reconcile i x).1 as

/-- The sum of the progress. -/
def adds : List Out → Int × Int
  | [] => (0, 0)
  | .progress m b :: os => (m + (adds os).1, b + (adds os).2)
  | _ :: os => adds os

end PG.Spec.Manager
