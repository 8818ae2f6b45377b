import Verif.Model.Handles
/-!
# Histories of a connection's objects, and what it means that the user lets go of one
-/
namespace PG.Spec.Handles
open PG PG.Handles

/-- A history. -/
def run (s : State) (es : List Event) : State := es.foldl PG.Handles.step s

/-- Every event of the history is possible when it happens. -/
def Possible : State → List Event → Prop
  | _, [] => True
  | s, e :: es => e.Ok s ∧ Possible (PG.Handles.step s e) es

/-- The user closes the object at address `a` or has no reference to it any more, or the server (a transaction's end, SQL) removes what it stands for. -/
def LetsGo (a : Nat) (k : Kind) (id : Bytes) : Event → Prop
  | .create _ _ _ _ f => a ∈ f.all
  | .adopt _ _ _ f => a ∈ f.all
  | .other f => a ∈ f.all
  | .close b => b = a
  | .collect b => b = a
  | .drop j n => j = k ∧ n = id
  | .sql _ _ => False

/-- The user's own cursor or statement `n` of kind `k` is touched: an object is made for it, or the server removes it. -/
def Touches (k : Kind) (n : Bytes) : Event → Prop
  | .adopt j _ m _ => j = k ∧ m = n
  | .drop j m => j = k ∧ m = n
  | _ => False

/-- Something is sent. -/
def Sends : Event → Prop
  | .create _ _ .refused _ _ => False
  | .create _ _ _ _ _ => True
  | .adopt _ _ _ _ => True
  | .other _ => True
  | _ => False

/-- Somebody uses the object: it is there and was not closed. -/
def InUse (s : State) (k : Kind) (id : Bytes) : Prop := ∃ o ∈ s.objs, o.kind = k ∧ o.id = id ∧ o.closed ≠ some true

end PG.Spec.Handles
