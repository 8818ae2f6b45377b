import Verif.Spec.CopyLoad
import Verif.Props.CopyReceiver
import Verif.Props.CopyTo
/-!
# What a destination of a transfer may have been sent

`rows` are the rows the source sent, `e` is whether it sent an error.
-/
namespace PG.Spec.Transfer
open PG PG.Client3 PG.Lifecycle PG.CopyReceiver PG.Spec PG.Spec.Client PG.Spec.Lifecycle PG.Spec.CopyLoad PG.Props.Lifecycle PG.Props.Status PG.Props.CopyLoad

/-- A connection with any history. -/
def Reached (db : Db) : Prop := ∃ s r st before, db = (calls (established s r st) before).1

/-- What was sent on the connection before the COPY: everything up to then, and what was still to be done on it. -/
def Before (db : Db) (pre : Bytes) : Prop := wire db <+: pre ∧ (Idle db → NoGarbage db → pre = wire db ++ unsent db)

/-- Leaving the receiver was completed: it returned, or reported an error of the server. -/
def Completed (o : Option Outcome) : Prop := o = some .ok ∨ ∃ m, o = some (.dbError false m)

/-- The load was given up: some of the rows, in order and from the first (of the last one the length, perhaps filled up), and then CopyFail; a beginning of that, or all of it. -/
def GivenUp (rows : List Bytes) (pre stmt w : Bytes) (left : Option Outcome) : Prop :=
  ∃ done last, done <+: rows ∧ last.length ≤ 1 ∧ w <+: pre ++ upload stmt (done ++ last) ++ frames [copyFail, syncMsg] ∧
    (Completed left → w = pre ++ upload stmt (done ++ last) ++ frames [copyFail, syncMsg])

/-- All rows, in order, and then CopyDone; a beginning of that, or all of it. -/
def Committed (rows : List Bytes) (pre stmt w : Bytes) (left : Option Outcome) : Prop :=
  w <+: pre ++ upload stmt rows ++ frames [copyDone, syncMsg] ∧ (Completed left → w = pre ++ upload stmt rows ++ frames [copyDone, syncMsg])

/-- The destination was sent nothing else. -/
def Sound (rows : List Bytes) (e : Bool) (db : Db) (stmt : Bytes) (now : Db) (left : Option Outcome) : Prop :=
  ∃ pre, Before db pre ∧ (GivenUp rows pre stmt (wire now) left ∨ (e = false ∧ Committed rows pre stmt (wire now) left))

end PG.Spec.Transfer
