import Verif.Spec.Xact
/-!
# What the messages of a server mean, by their type byte

From the protocol documentation; rows and lines of COPY data included.  Errors and asynchronous messages are not part of what a
transaction collects.
-/
namespace PG.Spec.Received
open PG PG.Element3 PG.Xact3

/-- The class of the messages of a type. -/
def kindOf : UInt8 → Option Kind
  | 49 => some (.empty .parseComplete)
  | 50 => some (.empty .bindComplete)
  | 51 => some (.empty .closeComplete)
  | 67 => some .complete
  | 68 => some .tuple
  | 71 => some .copyFromBegin
  | 72 => some .copyToBegin
  | 73 => some (.empty .null)
  | 84 => some .tupleDescriptor
  | 86 => some .functionResult
  | 90 => some .ready
  | 99 => some (.empty .copyDone)
  | 110 => some (.empty .noData)
  | 115 => some (.empty .suspension)
  | 116 => some .attributeTypes
  | _ => none

/-- What a message is for the user. -/
def procOf (x : Msg) : Option Proc :=
  if x.1 = 100 then some (.raw x.2)
  else match kindOf x.1 with
    | some k => match parseK k x.2 with
      | .ok m => some (.elem m)
      | .error _ => none
    | none => none

/-- The messages of a reply as the user gets them. -/
def meaning (ms : List Msg) : List Proc := ms.filterMap procOf

end PG.Spec.Received
