import Verif.Model.PgString
import Verif.Model.PyInt
import Verif.Model.PyDict
import Verif.Model.Element3
import Verif.Model.Iri
/-!
# Model of the connectors (`driver/pq3.py` `Connector` and its subclasses, `api.py` `Connector`)

What is taken from Python and the operating system is a parameter: the codecs, `str()` of a list, `socket.getaddrinfo`. The objects for
making sockets (`SocketFactory`) and the security parameters are not modelled here (C16), nor the `category`.
-/
namespace PG.Connector
open PG PG.PgString PG.PyStr

/-- The value of a setting, or of a keyword: `None`, a `str`, a sequence of `str`, or another object by its `str()`. -/
inductive Val where
  | none
  | text (s : Str)
  | names (l : List Str)
  | other (shown : Str)
  deriving DecidableEq, Repr

/-- `settings`: `None`, a dictionary, or a sequence of pairs. -/
inductive Settings where
  | none
  | dict (d : List (Str × Val))
  | pairs (l : List (Str × Val))
  deriving DecidableEq, Repr

/-- The keywords of a connector that matter for the startup message. -/
structure Args where
  user : Val
  password : Val := .none
  database : Val := .none
  settings : Settings := .none
  serverEncoding : Option Str := Option.none
  deriving DecidableEq, Repr

/-- The codecs and `str()` of a sequence. Distinct texts have distinct UTF-8. -/
structure Env where
  /-- `s.encode(name)`. -/
  encode : Str → Str → Except Err Bytes
  utf8_inj : ∀ a b x, encode "utf-8".toList a = .ok x → encode "utf-8".toList b = .ok x → a = b
  showNames : List Str → Str

/-- `str(v)`. -/
def pyStr (E : Env) : Val → Str
  | .none => "None".toList
  | .text s => s
  | .names l => E.showNames l
  | .other s => s

/-- `d.update(l)`. -/
def update {κ β : Type} [DecidableEq κ] (d : List (κ × β)) (l : List (κ × β)) : List (κ × β) := l.foldl (fun d e => PyDict.set e.1 e.2 d) d

/-- The settings part of `_startup` (pq3.py:2817-2827): `s`, and what is left of the connector's settings. For a sequence of pairs
`'search_path' in self.settings` is false. A value of `search_path` that is no sequence of `str` raises. -/
def settingsOf : Settings → Except Err (List (Str × Val) × Settings)
  | .none => .ok ([], .none)
  | .pairs l => .ok (update [] l, .pairs l)
  | .dict d => match PyDict.get "search_path".toList d with
    | Option.none => .ok (d, .dict d)
    | some .none => .ok (d, .dict (PyDict.erase "search_path".toList d))
    | some (.text _) => .ok (d, .dict d)
    | some (.names l) => .ok (PyDict.set "search_path".toList (.text (join [','] (l.map quoteIdent))) d, .dict d)
    | some (.other _) => .error .typeError

/-- `tnkw` (pq3.py:2814-2832), from `s`. -/
def keywords (c : Args) (s : List (Str × Val)) : List (Str × Val) :=
  let d := update [("client_min_messages".toList, .text "WARNING".toList)] s
  let d := PyDict.set "user".toList c.user d
  match c.database with
  | .none => d
  | v => PyDict.set "database".toList v d

/-- `self.server_encoding or 'utf-8'` (pq3.py:2836). -/
def encodingOf (c : Args) : Str :=
  match c.serverEncoding with
  | Option.none => "utf-8".toList
  | some s => if s = [] then "utf-8".toList else s

/-- An item of the tuple (pq3.py:2837-2843). -/
def encodeItem (E : Env) (se : Str) (e : Str × Val) : Except Err (Bytes × Bytes) := do
  let k ← E.encode "utf-8".toList e.1
  let v ← match e.2 with
    | .text s => E.encode se s
    | v => E.encode "utf-8".toList (pyStr E v)
  return (k, v)

/-- `(self.password or '').encode(se)` (pq3.py:2844); objects that are no `str` are taken as true. -/
def encodePassword (E : Env) (se : Str) : Val → Except Err Bytes
  | .none => E.encode se []
  | .text s => E.encode se s
  | _ => .error .attributeError

/-- What `_startup` leaves. -/
structure Started where
  parameters : List (Bytes × Bytes)
  password : Bytes
  settings : Settings
  deriving DecidableEq, Repr

/-- `Connector.__init__` (api.py:1121-1143) as far as `user`, and `_startup` (pq3.py:2812-2844). -/
def startup (E : Env) (c : Args) : Except Err Started :=
  if c.user = .none then .error .typeError
  else do
    let s ← settingsOf c.settings
    let ps ← (keywords c s.1).mapM (encodeItem E (encodingOf c))
    let pw ← encodePassword E (encodingOf c) c.password
    return ⟨ps, pw, s.2⟩

/-- The startup message of the connection made with the parameters (client3.py:531-533; element3.py:583-602): a dictionary of them, with length and version. -/
def message (ps : List (Bytes × Bytes)) : Except Err Bytes := do
  let data ← Element3.serialize (.startup ((update [] ps).map fun e => (e.1, some e.2)))
  let n ← packU 4 (data.length + 4)
  return n ++ data

/-! ### Addresses -/

/-- `address_family`. -/
inductive Family where
  | unspec | inet | inet6 | unix
  | other (n : Nat)
  deriving DecidableEq, Repr

/-- A number, or a text. -/
inductive Num where
  | int (n : Int)
  | text (s : Str)
  deriving DecidableEq, Repr

/-- `int(port)`. -/
def toInt : Num → Except Err Int
  | .int n => .ok n
  | .text s => PyInt.pyInt 10 s

/-- Where a socket is made to. -/
inductive Address where
  | ip (family : Family) (host : Str) (port : Int)
  | path (p : Str)
  deriving DecidableEq, Repr

/-- `IP4` and `IP6` (pq3.py:2855-2908): `version` is 4 or 6; `ipv` not given stands for the version. -/
def ipAddresses (version : Int) (family : Family) (host : Option Str) (port : Option Num) (ipv : Option (Option Num)) : Except Err (List Address) :=
  if ipv.getD (some (.int version)) ≠ some (.int version) then .error .typeError
  else match host, port with
    | some h, some p => (toInt p).map fun n => [.ip family h n]
    | _, _ => .error .typeError

/-- `IP4` (pq3.py:2855-2881). -/
def ip4 (host : Option Str) (port : Option Num) (ipv : Option (Option Num)) : Except Err (List Address) := ipAddresses 4 .inet host port ipv
/-- `IP6` (pq3.py:2883-2908). -/
def ip6 (host : Option Str) (port : Option Num) (ipv : Option (Option Num)) : Except Err (List Address) := ipAddresses 6 .inet6 host port ipv

/-- `Unix` (pq3.py:2910-2932). -/
def unix : Option Str → Except Err (List Address)
  | some p => .ok [.path p]
  | Option.none => .error .typeError

/-- `Host.__init__` (pq3.py:2957-2986): the family asked for. -/
def hostFamily (host : Option Str) (port : Option Num) (ipv : Option Num) (family : Option Family) : Except Err Family :=
  if host = Option.none then .error .typeError
  else if port = Option.none then .error .typeError
  else if family ≠ Option.none ∧ ipv ≠ Option.none then .error .typeError
  else match ipv with
    | Option.none => .ok (family.getD .unspec)
    | some v => if v = .int 4 then .ok .inet else if v = .int 6 then .ok .inet6 else .error .typeError

/-- `Host.socket_factory_sequence` (pq3.py:2940-2955); `getaddrinfo` is a parameter. -/
def hostAddresses (getaddrinfo : Str → Num → Family → Except Err (List (Family × Str × Int))) (host : Str) (port : Num) (family : Family) : Except Err (List Address) :=
  (getaddrinfo host port family).map fun l => l.map fun x => .ip x.1 x.2.1 x.2.2

/-! ### What is shown -/

/-- `_pq_iri` (pq3.py:2744-2754): the attributes that are not `None`. -/
def pqIri (E : Iri.Env) (attributes : Iri.Params) : Except Err Str :=
  Iri.serialize E true (attributes.filter fun e => e.1.head? ≠ some '_' ∧ e.1 ≠ "driver".toList ∧ e.1 ≠ "category".toList)

/-- `__repr__` (pq3.py:2759-2768); `pyRepr` is `repr()`, `os.linesep` a newline. -/
def repr (modname name : Str) (pyRepr : Iri.PVal → Str) (attributes : Iri.Params) : Str :=
  let keywords := join (",\n ".toList) ((attributes.filter fun e => e.1.head? ≠ some '_').map fun e => e.1 ++ " = ".toList ++ pyRepr e.2)
  modname ++ ['.'] ++ name ++ ['('] ++ (if keywords = [] then [] else "\n ".toList ++ keywords) ++ [')']

end PG.Connector
