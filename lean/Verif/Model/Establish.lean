import Verif.Model.Itertools
/-!
# Model of connecting: `protocol/client3.py` `Connection.connect` and `driver/pq3.py` `Connection._establish`

What the network and the server do in an attempt is a parameter (`World`).  What the client does to the outside is recorded
(`Wire`).  The negotiation after the socket is set up is the transaction of C14; here only its outcome is a parameter.
Not modelled: timeouts' messages, `failures`, what `_establish` does after a connection was made.
-/
namespace PG.Establish
open PG PG.Itertools

/-- What the client does that can be seen from outside. -/
inductive Wire where
  /-- a socket to this address is opened -/
  | open (addr : Nat)
  /-- the SSL request is sent -/
  | sslRequest
  /-- a TLS handshake is made -/
  | handshake
  /-- the startup message is sent, over TLS or in clear -/
  | startup (tls : Bool)
  | close
  deriving DecidableEq, Repr

/-- How opening the socket ends. -/
inductive SockRes where | ok | error | raises
  deriving DecidableEq, Repr
/-- The byte answered to the SSL request. -/
inductive SslReply where | S | N | other | raises
  deriving DecidableEq, Repr
/-- How the negotiation ends: done, failed, or failed with a Python exception recorded. -/
inductive NegRes where | ok | failed | exception
  deriving DecidableEq, Repr

/-- The outside world during one attempt. -/
structure World where
  sock : SockRes
  reply : SslReply
  /-- the handshake succeeds -/
  secure : Bool
  neg : NegRes
  deriving DecidableEq, Repr

/-- What is left after `pq.connect()`. -/
structure Attempt where
  /-- `pq.ssl_negotiation`; `none`: not set (`-1`); `some none`: neither S nor N -/
  didssl : Option (Option Bool)
  /-- `pq.xact is None` -/
  done : Bool
  /-- `hasattr(pq.xact, 'exception')` -/
  exception : Bool
  /-- `pq.socket is not None` -/
  socket : Bool
  /-- an exception left `connect()` -/
  raised : Bool
  wire : List Wire
  deriving DecidableEq, Repr

/-- client3.py:183-202: the negotiation over socket `tls`. -/
def negotiate (didssl : Option (Option Bool)) (tls : Bool) (w : World) (wire : List Wire) : Attempt :=
  { didssl, done := w.neg = .ok, exception := w.neg = .exception, socket := true, raised := false, wire := wire ++ [.startup tls] }

/-- client3.py:117-233 `connect(ssl)` with `negotiate_ssl`. -/
def connect (addr : Nat) (ssl : Option Bool) (w : World) : Attempt :=
  let wire := [Wire.open addr]
  match w.sock with
  | .raises => ⟨none, false, false, false, true, wire⟩
  | .error => ⟨none, false, true, false, false, wire⟩                                            -- 138-161
  | .ok => match ssl with
    | none => negotiate none false w wire
    | some required =>
      let wire := wire ++ [.sslRequest]
      match w.reply with
      | .raises => ⟨none, false, false, true, true, wire⟩
      | .other => ⟨some none, false, false, true, false, wire⟩                                   -- 170-175
      | .N =>
        if required then ⟨some (some false), false, false, true, false, wire⟩                    -- 178-183
        else negotiate (some (some false)) false w wire
      | .S =>
        let wire := wire ++ [.handshake]
        if w.secure then negotiate (some (some true)) true w wire
        else ⟨some (some true), false, true, true, false, wire⟩                                  -- 189-195

/-- What `_establish` ends with. -/
inductive Result where
  /-- connected: `security == 'ssl'` -/
  | connected (ssl : Bool)
  | cannotConnect
  | valueError
  | raised
  deriving DecidableEq, Repr

/-- pq3.py:2474-2500: the attempts of an sslmode (`none`: invalid). -/
def attempts (sslmode : String) (addrs : List Nat) : Option (List (Option Bool × Nat)) :=
  if sslmode = "allow" then some (interlace [addrs.map (none, ·), addrs.map (some true, ·)])
  else if sslmode = "prefer" then some (interlace [addrs.map (some false, ·), addrs.map (none, ·)])
  else if sslmode = "require" then some (addrs.map (some true, ·))
  else if sslmode = "disable" then some (addrs.map (none, ·))
  else none

/-- pq3.py:2538-2553: whether the next attempt is skipped. -/
def canSkip (sslmode : String) (ssl : Option Bool) (a : Attempt) : Bool :=
  if sslmode = "prefer" ∧ ssl = some false ∧ a.didssl = some (some false) then true
  else if a.exception then
    if sslmode = "prefer" ∧ ssl = some false then true
    else if sslmode = "allow" ∧ ssl = none then true
    else false
  else false

/-- pq3.py:2510-2566: the loop over the attempts.  The world of an attempt may depend on everything done before. -/
def tryAll (sslmode : String) (world : List Wire → World) : List (Option Bool × Nat) → Bool → List Wire → Result × List Wire
  | [], _, wire => (.cannotConnect, wire)
  | (ssl, addr) :: rest, skip, wire =>
    if skip then tryAll sslmode world rest false wire
    else
      let a := connect addr ssl (world wire)
      let wire := wire ++ a.wire
      if a.raised then (.raised, wire)
      else if a.done then (.connected (a.didssl = some (some true)), wire)
      else
        let wire := if a.socket then wire ++ [.close] else wire
        tryAll sslmode world rest (canSkip sslmode ssl a) wire

/-- pq3.py:2446-2566 `_establish`: `sslmode or 'prefer'`; an error of `socket_factory_sequence` gives no addresses. -/
def establish (sslmode : Option String) (addrs : List Nat) (world : List Wire → World) : Result × List Wire :=
  let mode := match sslmode with
    | none => "prefer"
    | some m => if m = "" then "prefer" else m
  match attempts mode addrs with
  | none => (.valueError, [])
  | some l => tryAll mode world l false []

end PG.Establish
