import Verif.Model.Establish
/-!
# What the ssl modes promise
-/
namespace PG.Spec.Establish
open PG PG.Establish

/-- The startup message, which starts authentication, was sent in clear. -/
def SentInClear (wire : List Wire) : Prop := Wire.startup false ∈ wire
/-- The startup message was sent over TLS. -/
def SentOverTls (wire : List Wire) : Prop := Wire.startup true ∈ wire

/-- The addresses in the order they were opened. -/
def opened (wire : List Wire) : List Nat := wire.filterMap (fun | .open a => some a | _ => none)

end PG.Spec.Establish

namespace PG.Spec.Establish
open PG PG.Establish

/-- One attempt on an address; if it neither connects nor raises, go on with `next`, told what happened. -/
def attempt (ssl : Option Bool) (a : Nat) (world : List Wire → World) (wire : List Wire)
    (next : Attempt → List Wire → Result × List Wire) : Result × List Wire :=
  let r := connect a ssl (world wire)
  let wire := wire ++ r.wire
  if r.raised then (.raised, wire)
  else if r.done then (.connected (r.didssl = some (some true)), wire)
  else next r (if r.socket then wire ++ [.close] else wire)

/-- `prefer`: for each address, with SSL if the server has it; if that failed, in clear, unless the server already declined
SSL (then the attempt was in clear) or the failure was a Python exception. -/
def prefer (world : List Wire → World) : List Nat → List Wire → Result × List Wire
  | [], wire => (.cannotConnect, wire)
  | a :: rest, wire =>
    attempt (some false) a world wire fun r wire =>
      if r.didssl = some (some false) ∨ r.exception = true then prefer world rest wire
      else attempt none a world wire fun _ wire => prefer world rest wire

/-- `allow`: for each address, in clear; if that failed, with SSL required, unless the failure was a Python exception. -/
def allow (world : List Wire → World) : List Nat → List Wire → Result × List Wire
  | [], wire => (.cannotConnect, wire)
  | a :: rest, wire =>
    attempt none a world wire fun r wire =>
      if r.exception = true then allow world rest wire
      else attempt (some true) a world wire fun _ wire => allow world rest wire

/-- `require`: SSL required. -/
def require (world : List Wire → World) : List Nat → List Wire → Result × List Wire
  | [], wire => (.cannotConnect, wire)
  | a :: rest, wire => attempt (some true) a world wire fun _ wire => require world rest wire

/-- `disable`: in clear. -/
def disable (world : List Wire → World) : List Nat → List Wire → Result × List Wire
  | [], wire => (.cannotConnect, wire)
  | a :: rest, wire => attempt none a world wire fun _ wire => disable world rest wire

end PG.Spec.Establish
