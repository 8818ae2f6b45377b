import Verif.Spec.Lifecycle
/-!
# Vocabulary for the statements about errors and the status of a connection
-/
namespace PG.Spec.Status
open PG PG.Xact3 PG.Client3 PG.Lifecycle PG.Spec.Lifecycle

/-- The messages of the server that the transactions of the connection processed, in order. -/
def taken (db : Db) : List Msg := match connOf db with | some c => c.taken | none => []

/-- How many of the messages are ErrorResponses (type `E`). -/
def errors (ms : List Msg) : Nat := (ms.filter (fun m => m.1 = 69)).length

/-- The status in the last ReadyForQuery (type `Z`) among the messages. -/
def lastStatus (ms : List Msg) : Option Bytes := ((ms.filter (fun m => m.1 = 90)).getLast?).map (·.2)

end PG.Spec.Status
