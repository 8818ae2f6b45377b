import Verif.Model.Xact3
/-!
# Sending COPY data

While a transaction wants to send, the connection writes its `messages` and calls its `sent` operation (client3.py:411-417,
463-465); before each such transition the user may assign `messages`.
-/
namespace PG.Spec.CopyIn
open PG PG.Element3 PG.Xact3

/-- The user's assignment, if any. -/
def choose (s : Inst) : Option Out → Inst
  | some o => { s with messages := o }
  | none => s

/-- The transitions with the user's choices: what is written, sequence by sequence, and the transaction.  Nothing more is
written once the transaction does not want to send. -/
def sendAll (s : Inst) : List (Option Out) → List (List Item) × Inst
  | [] => ([], s)
  | u :: us =>
    match s.state with
    | .sending _ =>
      let s := choose s u
      let r := sendAll (sent s) us
      (outItems s :: r.1, r.2)
    | _ => ([], s)

/-- The user's choice ends the COPY: `x.messages = x.CopyDoneSequence` or `x.CopyFailSequence`. -/
def Ends : Option Out → Prop
  | some .copyDone | some .copyFail => True
  | _ => False

/-- The user gives data. -/
def IsData : Option Out → Prop
  | some (.data _) => True
  | _ => False

/-- The data of a choice. -/
def dataOf : Option Out → List Item
  | some (.data l) => l
  | _ => []

/-- How a COPY can end: the message of `CopyDone`, or of the failure. -/
def done : Item := .msg (.empty .copyDone)
def fail : Item := .msg (.str .copyFail [105, 110, 118, 97, 108, 105, 100, 32, 116, 101, 114, 109, 105, 110, 97, 116, 105, 111, 110])

end PG.Spec.CopyIn
