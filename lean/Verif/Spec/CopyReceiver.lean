import Verif.Model.CopyReceiver
/-!
# Specification vocabulary for receiving into a COPY
-/
namespace PG.CopyReceiver
open PG

/-- The manager gives a receiver data only when it has transmitted what it was given before. -/
def Prompt : Rcv → List Op → Prop
  | _, [] => True
  | r, .accept d :: ops => r.view = [] ∧ Prompt (apply r (.accept d)) ops
  | r, .transmit :: ops => Prompt (apply r .transmit) ops

/-- All the data it was given. -/
def accepted : List Op → Bytes
  | [] => []
  | .accept d :: ops => d ++ accepted ops
  | .transmit :: ops => accepted ops

end PG.CopyReceiver
