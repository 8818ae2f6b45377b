import Verif.Model.Establish
/-!
# Model of `postgresql/python/socket.py` and of the security parameters of connectors (`driver/pq3.py`)

Files are numbers; what reading one gives at a moment is a parameter (`Disk`). Python's `ssl` is modelled as far as: a context made with `PROTOCOL_TLS_CLIENT` demands a certificate of the server that is
issued by an authority in the context (none at first), it checks the name unless told not to, and sends a client certificate if it has one (Python documentation of `ssl`).
Not modelled: protocol versions, ciphers, validity periods, chains of several certificates, texts of errors.
-/
namespace PG.Security
open PG

/-- pq3.py:2793-2797: the keywords of a connector; an empty string is the same as None (`or None`). -/
structure Keywords where
  sslkeyfile : Option String
  sslcrtfile : Option String
  sslrootcrtfile : Option String
  sslrootcrlfile : Option String
  deriving DecidableEq, Repr

/-- `x or None`. -/
def orNone : Option String → Option String
  | none => none
  | some s => if s = "" then none else some s

/-- pq3.py:2799-2803 `_socket_secure`. -/
structure Secure where
  keyfile : Option String
  certfile : Option String
  caCerts : Option String
  deriving DecidableEq, Repr

/-- pq3.py:2793-2809 `_security`: the parameters of the socket factories, and whether the warning about revocation lists is emitted. -/
def security (k : Keywords) : Secure × Bool :=
  (⟨orNone k.sslkeyfile, orNone k.sslcrtfile, orNone k.sslrootcrtfile⟩, (orNone k.sslrootcrlfile).isSome)

/-- The files at a moment: whether a certificate with a key file can be loaded, and the authorities in a file (`none`: it cannot be loaded). -/
structure Disk where
  chain : String → Option String → Bool
  authorities : String → Option (List Nat)

/-- An `SSLContext`. -/
structure Context where
  certRequired : Bool
  checkHostname : Bool
  chain : Option (String × Option String)
  authorities : List Nat
  deriving DecidableEq, Repr

/-- `SSLContext(PROTOCOL_TLS_CLIENT)` and `check_hostname = False` (socket.py:55-56). -/
def newContext : Context := ⟨true, false, none, []⟩

/-- socket.py:86-95: a factory: its parameters and its context, if made. -/
structure Factory where
  secure : Secure
  context : Option Context
  deriving DecidableEq, Repr

/-- socket.py:86-95 `__init__` as called by the connectors. -/
def Factory.new (s : Secure) : Factory := ⟨s, none⟩

/-- socket.py:58-61: the client certificate; `none` in the first place: an error was raised. -/
def loadChain (s : Secure) (d : Disk) (c : Context) : Option Context :=
  match s.certfile with
  | none => some c
  | some f => if d.chain f s.keyfile then some { c with chain := some (f, s.keyfile) } else none

/-- socket.py:63-65: the authorities. -/
def loadVerify (s : Secure) (d : Disk) (c : Context) : Option Context :=
  match s.caCerts with
  | none => some c
  | some f =>
    match d.authorities f with
    | some a => some { c with authorities := c.authorities ++ a }
    | none => none

/-- socket.py:51-67 `_security_context`: the context, `none` if an error is raised; the new context is stored before it is filled. -/
def securityContext (f : Factory) (d : Disk) : Option Context × Factory :=
  match f.context with
  | some c => (some c, f)
  | none =>
    match loadChain f.secure d newContext with
    | none => (none, { f with context := some newContext })
    | some c =>
      match loadVerify f.secure d c with
      | none => (none, { f with context := some c })
      | some c' => (some c', { f with context := some c' })

/-- A server's side of a handshake: the authority of its certificate, the names in it, whether it is revoked, the authorities it wants a client certificate of (`none`: it wants none). -/
structure Peer where
  issuer : Nat
  names : List String
  revoked : Bool
  wantsClient : Bool
  deriving DecidableEq, Repr

/-- `wrap_socket(socket)`: no name is given; whether it returns. With `check_hostname` Python refuses to go on without a name. -/
def handshake (c : Context) (p : Peer) : Bool :=
  !c.checkHostname && (!c.certRequired || c.authorities.contains p.issuer) && (!p.wantsClient || c.chain.isSome)

/-- socket.py:69-73 `secure`: the context it was done with, `none` if an error is raised; and the factory after it. -/
def secure (f : Factory) (d : Disk) (p : Peer) : Option Context × Factory :=
  match securityContext f d with
  | (none, f) => (none, f)
  | (some c, f) => (if handshake c p then some c else none, f)

/-! ## Making sockets -/

/-- What is done with a socket. -/
inductive Op where
  | create
  | settimeout (t : Option Int)
  | connect
  | close
  deriving DecidableEq, Repr

/-- How an operation ends: an `Exception`, or an exception that is no `Exception` (KeyboardInterrupt). -/
inductive Ends where
  | ok
  | exception
  | interrupt
  deriving DecidableEq, Repr

/-- The operations before one does not end well, and how that ended. -/
def steps (ends : Op → Ends) : List Op → List Op × Ends
  | [] => ([], .ok)
  | o :: os =>
    match ends o with
    | .ok => (o :: (steps ends os).1, (steps ends os).2)
    | e => ([o], e)

/-- socket.py:75-84 `__call__(timeout)`: what is done, and how it ends. `validTimeout`: `float(timeout)` does not raise. -/
def makeSocket (timeout : Option Int) (validTimeout : Bool) (ends : Op → Ends) : List Op × Ends :=
  match ends .create with
  | .ok =>
    let r := if validTimeout then steps ends [.settimeout timeout, .connect, .settimeout none] else ([], .exception)
    (.create :: (r.1 ++ (if r.2 = .exception then [.close] else [])), r.2)
  | e => ([.create], e)

/-- socket.py:100-116 `find_available_port`: the name it binds to; the port is the system's choice among those free at that name. -/
def bindName (_interface : String) : String := "localhost"

end PG.Security
