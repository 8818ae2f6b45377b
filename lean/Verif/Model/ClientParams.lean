import Verif.Model.Iri
import Verif.Model.PgPass
/-!
# Client parameters: postgresql/clientparameters.py, `postgresql.open`, `Driver.fit`

The operating system is a parameter (`World`): the login name, the files that exist, service files as `configparser` reads them, password files,
the standard input, and the two functions of `socket` that recognize addresses. The platform is POSIX. Parsing of the command line by `optparse` is not modelled:
an option is what its callback is given. The text shown when a password is prompted for is not modelled.
-/
namespace PG.ClientParams
open PG

/-- A value that is not a dictionary; `obj` is any other object. -/
inductive Val where
  | none
  | text (s : Str)
  | int (n : Nat)
  | bool (b : Bool)
  | list (l : List Str)
  | pair (a b : Str)
  | obj (n : Nat)
  deriving DecidableEq, Repr

/-- The value of a parameter: a dictionary, or a sequence of pairs, is the list of its items. -/
inductive Arg where
  | val (v : Val)
  | dict (d : List (Str × Val))
  deriving DecidableEq, Repr

/-- A dictionary of parameters. -/
abbrev Params := List (Str × Arg)

/-- A denormalized parameter (clientparameters.py:18-31): its key-path has one component or two. -/
inductive Flat where
  | top (k : Str) (v : Arg)
  | sub (k sk : Str) (v : Val)
  deriving DecidableEq, Repr

/-- What `extrapolate` takes: a denormalized parameter, `('config-k', v)`, or another text as the key (clientparameters.py:520-537).
Configuration other than texts (`config-environ`, 606) is never looked at, and left out. -/
inductive Item where
  | flat (f : Flat)
  | config (k v : Str)
  | named (k : Str) (v : Arg)
  deriving DecidableEq, Repr

/-- The standard input when a password is asked for (clientparameters.py:395-405): a terminal, with what `getpass` gives, or the line read. -/
inductive Stdin where
  | tty (answer : Str)
  | line (s : Str)
  deriving DecidableEq, Repr

/-- The rest of the world. -/
structure World where
  E : Iri.Env
  /-- `getuser()`. -/
  user : Str
  /-- `os.path.expanduser('~' + u)`. -/
  home : Str → Str
  /-- `os.path.exists`. -/
  pathExists : Str → Bool
  /-- `cp.read(f)` and `cp.items(name)` (clientparameters.py:463-468); `none` for `NoSectionError`. -/
  service : Str → Str → Except Err (Option (List (Str × Str)))
  /-- The lines of a password file that exists. -/
  passfile : Arg → Option (List Str)
  stdin : Stdin
  /-- `str()` of an object that is not a text. -/
  str : Arg → Str
  /-- `socket.inet_pton(AF_INET6, host)` does not raise. -/
  inet6 : Str → Bool
  /-- `socket.inet_aton(host)` does not raise. -/
  inet4 : Str → Bool

/-- `os.path.join(a, b)` (POSIX). -/
def pathJoin (a b : Str) : Str :=
  if b.head? = some '/' then b
  else if a = [] ∨ a.getLast? = some '/' then a ++ b
  else a ++ '/' :: b

/-- `dict(v)`: a text is taken as a sequence of pairs, which only the empty one is. -/
def dictOf : Arg → Except Err (List (Str × Val))
  | .dict d => .ok d
  | .val (.text []) => .ok []
  | .val (.text _) => .error .valueError
  | .val (.list []) => .ok []
  | .val (.list _) => .error .valueError
  | .val (.pair _ _) => .error .valueError
  | .val _ => .error .typeError

/-- `x_settings` (clientparameters.py:414-417), and the inner loop of `denormalize_parameters` (428-429). -/
def xSettings (v : Arg) : Except Err (List Flat) := (dictOf v).map fun d => d.map fun e => .sub "settings".toList e.1 e.2

/-- `denormalize_parameters(p)` (clientparameters.py:419-431). -/
def denormalize : Params → Except Err (List Flat)
  | [] => .ok []
  | (k, v) :: p => match (if k = "settings".toList then xSettings v else .ok [.top k v]) with
    | .error e => .error e
    | .ok a => match denormalize p with
      | .error e => .error e
      | .ok b => .ok (a ++ b)

/-- A value that the parser of IRIs gives, as a parameter; not code of the repository. -/
def ofSVal : Iri.SVal → Val
  | .text s => .text s
  | .list l => .list l
  | .null => .none

/-- The values `iri.parse` gives are texts, lists and dictionaries; the other cases do not occur. -/
def ofPVal : Iri.PVal → Arg
  | .text s => .val (.text s)
  | .obj s => .val (.text s)
  | .yes => .val (.bool true)
  | .list l => .val (.list l)
  | .dict d => .dict (d.map fun e => (e.1, ofSVal e.2))
  | .pairs d => .dict (d.map fun e => (e.1, ofSVal e.2))

/-- `iri.parse(s)` as parameters (iri.py:174-185). -/
def iriParams (W : World) (s : Str) : Except Err Params := (Iri.parse W.E RiParse.unescape s).map fun p => p.map fun e => (e.1, ofPVal e.2)

/-- `x_pq_iri` (clientparameters.py:433-434). -/
def xIri (W : World) (v : Arg) : Except Err (List Flat) :=
  match v with
  | .val (.text s) => match iriParams W s with
    | .error e => .error e
    | .ok p => denormalize p
  | _ => .error .typeError

/-- `pg_service_driver_parameters` (clientparameters.py:77-92). -/
def serviceDriverParameters : List Str :=
  ["user".toList, "host".toList, "database".toList, "port".toList, "password".toList, "sslcrtfile".toList, "sslkeyfile".toList, "sslrootcrtfile".toList,
   "sslrootkeyfile".toList, "sslmode".toList, "server_encoding".toList, "connect_timeout".toList]

/-- The loop over the entries of the section (clientparameters.py:470-487); `pg_ldap` leads to an exception (512-513). -/
def serviceItems (W : World) : List (Str × Str) → Except Err (List Flat)
  | [] => .ok []
  | (k, v) :: s =>
    let k := W.E.U.lower k
    if k = "ldap".toList then .error .runtimeError
    else if k = "pg_service".toList then serviceItems W s
    else
      let f : Flat :=
        if k = "hostaddr".toList then .top "host".toList (.val (.text v))
        else if k = "dbname".toList then .top "database".toList (.val (.text v))
        else if k ∉ serviceDriverParameters then .sub "settings".toList k (.text v)
        else .top k (.val (.text v))
      (serviceItems W s).map fun l => f :: l

/-- The service files (clientparameters.py:439-456). -/
def serviceFiles (W : World) (config : List (Str × Str)) : List Str :=
  (match PyDict.get "pg_service_file".toList config with
    | some f => [f]
    | none => [pathJoin (W.home W.user) ".pg_service.conf".toList])
  ++ (match PyDict.get "pg_sysconfdir".toList config with
    | some d => if d = [] then [] else [pathJoin d ((PyDict.get "pg_service_filename".toList config).getD "pg_service.conf".toList)]
    | none => [])

/-- The loop over the files (clientparameters.py:458-509). `ServiceDoesNotExistError` is `.keyError`. -/
def serviceSearch (W : World) (name : Str) : List Str → Except Err (List Flat)
  | [] => .error .keyError
  | sf :: l =>
    if W.pathExists sf then
      match W.service sf name with
      | .error e => .error e
      | .ok none => serviceSearch W name l
      | .ok (some s) => serviceItems W s
    else serviceSearch W name l

/-- `x_pg_service` (clientparameters.py:438-509). -/
def xService (W : World) (config : List (Str × Str)) (v : Arg) : Except Err (List Flat) :=
  match v with
  | .val (.text name) => serviceSearch W name (serviceFiles W config)
  | _ => .error .typeError

/-- The callback of a key (clientparameters.py:515-520), applied; `none` where there is none. -/
def callback (W : World) (config : List (Str × Str)) (k : Str) (v : Arg) : Option (Except Err (List Flat)) :=
  if k = "settings".toList then some (xSettings v)
  else if k = "pq_iri".toList then some (xIri W v)
  else if k = "pg_service".toList then some (xService W config v)
  else if k = "pg_ldap".toList then some (.error .runtimeError)
  else none

/-- `extrapolate(iter)` (clientparameters.py:522-548). What callbacks yield needs no more expansion, but for `pg_ldap` (see `serviceItems`). -/
def extrapolate (W : World) : List (Str × Str) → List Item → Except Err (List Flat)
  | _, [] => .ok []
  | config, .flat f :: l => (extrapolate W config l).map fun r => f :: r
  | config, .config k v :: l => extrapolate W (PyDict.set k v config) l
  | config, .named k v :: l => match callback W config k v with
    | none => extrapolate W config l
    | some (.error e) => .error e
    | some (.ok a) => (extrapolate W config l).map fun r => a ++ r

/-- One item of `normalize` (clientparameters.py:568-572). -/
def assign (rd : Params) : Flat → Except Err Params
  | .top k v => .ok (PyDict.set k v rd)
  | .sub k sk v => match PyDict.get k rd with
    | none => .ok (PyDict.set k (.dict [(sk, v)]) rd)
    | some (.dict d) => .ok (PyDict.set k (.dict (PyDict.set sk v d)) rd)
    | some (.val _) => .error .typeError

/-- The loop of `normalize` (clientparameters.py:567-572). -/
def assignAll : Params → List Flat → Except Err Params
  | rd, [] => .ok rd
  | rd, f :: l => match assign rd f with
    | .error e => .error e
    | .ok rd => assignAll rd l

/-- `normalize(iter)` (clientparameters.py:562-573). -/
def normalize (l : List Flat) : Except Err Params := assignAll [] l

/-! ### The sources -/

/-- The files of `defaults` (clientparameters.py:149-155). -/
def defaultFiles (W : World) : List (Str × Str) :=
  let user := if W.user = [] then "postgres".toList else W.user
  let userdir := if W.home user = [] then "/dev/null".toList else W.home user
  let pgdata := pathJoin userdir ".postgresql".toList
  [("sslcrtfile".toList, pathJoin pgdata "postgresql.crt".toList), ("sslkeyfile".toList, pathJoin pgdata "postgresql.key".toList),
   ("sslrootcrtfile".toList, pathJoin pgdata "root.crt".toList), ("sslrootcrlfile".toList, pathJoin pgdata "root.crl".toList),
   ("pgpassfile".toList, pathJoin userdir ".pgpass".toList)]

/-- `defaults()` (clientparameters.py:128-157). -/
def defaults (W : World) : List Flat :=
  [.top "user".toList (.val (.text W.user)), .top "host".toList (.val (.text "localhost".toList)), .top "port".toList (.val (.int 5432))]
  ++ (defaultFiles W).filterMap fun e => if W.pathExists e.2 then some (.top e.1 (.val (.text e.2))) else none

/-- `default_envvar_map` (clientparameters.py:104-126). -/
def envvarMap : List (Str × Str) :=
  [("USER".toList, "user".toList), ("DATABASE".toList, "database".toList), ("HOST".toList, "host".toList), ("PORT".toList, "port".toList),
   ("PASSWORD".toList, "password".toList), ("SSLMODE".toList, "sslmode".toList), ("SSLKEY".toList, "sslkey".toList),
   ("CONNECT_TIMEOUT".toList, "connect_timeout".toList), ("REALM".toList, "kerberos4_realm".toList), ("KRBSRVNAME".toList, "kerberos5_service".toList),
   ("PASSFILE".toList, "pgpassfile".toList)]

/-- `if k in environ: yield …`. -/
def envItem (environ : List (Str × Str)) (name : Str) (f : Str → Item) : List Item :=
  match PyDict.get name environ with
  | some v => [f v]
  | none => []

/-- `envvars(environ, modifier)` (clientparameters.py:159-218). The list `settings` (203-205) is computed and dropped. -/
def envvars (W : World) (environ : List (Str × Str)) (pre : Str) : List Item :=
  (match PyDict.get (pre ++ "REQUIRESSL".toList) environ with
    | some v => if PyStr.strip W.E.U v = ['1'] then [.flat (.top "sslmode".toList (.val (.pair "require".toList (pre ++ "REQUIRESSL".toList ++ "=1".toList))))] else []
    | none => [])
  ++ envvarMap.flatMap (fun e => envItem environ (pre ++ e.1) fun v => .flat (.top e.2 (.val (.text v))))
  ++ envItem environ (pre ++ "HOSTADDR".toList) (fun v => .flat (.top "host".toList (.val (.text v))))
  ++ envItem environ "PGSYSCONFDIR".toList (fun v => .config "pg_sysconfdir".toList v)
  ++ envItem environ "PGSERVICEFILE".toList (fun v => .config "pg_service_file".toList v)
  ++ envItem environ (pre ++ "SERVICE".toList) (fun v => .named "pg_service".toList (.val (.text v)))

/-- An option of the command line, with the text given to it (clientparameters.py:236-324). -/
inductive Opt where
  | username (v : Str)
  | database (v : Str)
  | password
  | host (v : Str)
  | port (v : Str)
  | unix (v : Str)
  | setting (v : Str)
  | sslmode (v : Str)
  | iri (v : Str)
  deriving DecidableEq, Repr

/-- What the callback of an option appends (clientparameters.py:236-241, 278-289, 305-306). A setting without `=` raises (`NameError`, as `OptionValueError`
is not imported). -/
def optItem : Opt → Except Err Item
  | .username v => .ok (.flat (.top "user".toList (.val (.text v))))
  | .database v => .ok (.flat (.top "database".toList (.val (.text v))))
  | .password => .ok (.flat (.top "prompt_password".toList (.val (.bool true))))
  | .host v => .ok (.flat (.top "host".toList (.val (.text v))))
  | .port v => .ok (.flat (.top "port".toList (.val (.text v))))
  | .unix v => .ok (.flat (.top "unix".toList (.val (.text v))))
  | .sslmode v => .ok (.flat (.top "sslmode".toList (.val (.text v))))
  | .iri v => .ok (.named "pq_iri".toList (.val (.text v)))
  | .setting v => match PyStr.splitMax '=' 1 v with
    | [k, s] => .ok (.flat (.sub "settings".toList k (.text s)))
    | _ => .error .attributeError

/-- The list of the options (clientparameters.py:346). -/
def optItems : List Opt → Except Err (List Item)
  | [] => .ok []
  | o :: l => match optItem o with
    | .error e => .error e
    | .ok i => (optItems l).map fun r => i :: r

/-! ### Passwords -/

/-- The text of a value: `str(v)`. -/
def strOf (W : World) : Arg → Str
  | .val (.text s) => s
  | v => W.str v

/-- What `lookup_pgpass` looks at (pgpassfile.py:68-71). -/
def conf (W : World) (p : Params) : PgPass.Conf where
  user := (PyDict.get "user".toList p).map (strOf W)
  host := (PyDict.get "host".toList p).map (strOf W)
  port := (PyDict.get "port".toList p).map (strOf W)
  database := (PyDict.get "database".toList p).map (strOf W)

/-- `pw[:len(pw)-len(os.linesep)]` if the text ends so (clientparameters.py:402-404); `os.linesep` is a newline. -/
def chomp (s : Str) : Str := if s.getLast? = some '\n' then s.dropLast else s

/-- `None` for a password (`lookup_password` without a match). -/
def optText : Option Str → Arg
  | none => .val .none
  | some s => .val (.text s)

/-- `resolve_password(parameters)` (clientparameters.py:370-412). -/
def resolvePassword (W : World) (p : Params) : Except Err Params :=
  let prompt := PyDict.get "prompt_password".toList p
  let passfile := PyDict.get "pgpassfile".toList p
  let p := PyDict.erase "prompt_title".toList (PyDict.erase "pgpassfile".toList (PyDict.erase "prompt_password".toList p))
  if prompt = some (.val (.bool true)) then
    match W.stdin with
    | .tty a => .ok (PyDict.set "password".toList (.val (.text a)) p)
    | .line s => .ok (PyDict.set "password".toList (.val (.text (chomp s))) p)
  else if (PyDict.get "password".toList p).getD (.val .none) = .val .none then
    match passfile with
    | none => .ok p
    | some (.val .none) => .ok p
    | some f => match PgPass.lookupPgpass W.E.U (conf W p) (W.passfile f) with
      | .error e => .error e
      | .ok w => .ok (PyDict.set "password".toList (optText w) p)
  else .ok p

/-! ### `collect` -/

/-- The arguments of `collect` (clientparameters.py:585-594). -/
structure Collect where
  options : Option (List Opt) := none
  noDefaults : Bool := false
  environ : Option (List (Str × Str))
  pre : Str := "PG".toList
  sysconfdir : Option Str := none
  serviceFile : Option Str := none
  /-- `prompt_title is not None`. -/
  resolve : Bool := true
  parameters : Params := []

/-- The items of all the sources, in order (clientparameters.py:608-633). -/
def sources (W : World) (c : Collect) : Except Err (List Item) :=
  match denormalize c.parameters with
  | .error e => .error e
  | .ok ps => match optItems (c.options.getD []) with
    | .error e => .error e
    | .ok os => .ok (
        (match c.sysconfdir with | some d => [.config "pg_sysconfdir".toList d] | none => [])
        ++ (match c.serviceFile with | some f => [.config "pg_service_file".toList f] | none => [])
        ++ (if c.noDefaults then [] else (defaults W).map .flat)
        ++ ps.map .flat
        ++ (match c.environ with | some e => envvars W e c.pre | none => [])
        ++ os)

/-- `normalize(extrapolate(chain(*d_parameters)))` (clientparameters.py:635). -/
def gather (W : World) (c : Collect) : Except Err Params :=
  match sources W c with
  | .error e => .error e
  | .ok l => match extrapolate W [] l with
    | .error e => .error e
    | .ok fs => normalize fs

/-- `collect(...)` (clientparameters.py:585-638). -/
def collect (W : World) (c : Collect) : Except Err Params :=
  match gather W c with
  | .error e => .error e
  | .ok p => if c.resolve then resolvePassword W p else .ok p

/-! ### `open`, `dbapi20.connect` -/

/-- The parameters of an IRI given to `open`, and whether it starts with `&` (postgresql/__init__.py:64-73). -/
def openIri (W : World) : Option Str → Except Err (Bool × Params)
  | none => .ok (false, [])
  | some s =>
    let (amp, s) := if s.head? = some '&' then (true, s.drop 1) else (false, s)
    match iriParams W s with
    | .error e => .error e
    | .ok p => .ok (amp, PyDict.erase "path".toList p)

/-- `normalize` of dictionaries, one after the other (postgresql/__init__.py:81-85; dbapi20.py:413-416). -/
def mergeAll : List Params → Except Err (List Flat)
  | [] => .ok []
  | p :: l => match denormalize p with
    | .error e => .error e
    | .ok a => (mergeAll l).map fun b => a ++ b

/-- `normalize(extrapolate(chain(...)))` of dictionaries (postgresql/__init__.py:81-85; dbapi20.py:413-416). -/
def merge (l : List Params) : Except Err Params :=
  match mergeAll l with
  | .error e => .error e
  | .ok fs => normalize fs

/-- The standard parameters without host and port (postgresql/__init__.py:78-80). -/
def withoutAddress (p : Params) : Params := PyDict.erase "port".toList (PyDict.erase "host".toList p)

/-- The parameters `open` gives to `fit` (postgresql/__init__.py:64-86). -/
def openParams (W : World) (environ : List (Str × Str)) (iri : Option Str) (kw : Params) : Except Err (Bool × Params) :=
  match openIri W iri with
  | .error e => .error e
  | .ok (amp, ip) => match collect W { environ := some environ, resolve := false } with
    | .error e => .error e
    | .ok std =>
      let std := if PyDict.get "unix".toList kw ≠ none ∨ PyDict.get "unix".toList ip ≠ none then withoutAddress std else std
      match merge [std, ip, kw] with
      | .error e => .error e
      | .ok p => match resolvePassword W p with
        | .error e => .error e
        | .ok p => .ok (amp, p)

/-- The parameters `dbapi20.connect` gives to the driver (dbapi20.py:412-417). -/
def connectParams (W : World) (environ : List (Str × Str)) (kw : Params) : Except Err Params :=
  match collect W { environ := some environ, resolve := false } with
  | .error e => .error e
  | .ok std => match merge [std, kw] with
    | .error e => .error e
    | .ok p => resolvePassword W p

/-! ### `Driver.fit` -/

/-- The kinds of connectors. -/
inductive Kind where
  | unix | ip4 | ip6 | host
  deriving DecidableEq, Repr

/-- A keyword of `fit` that is given and not `None`. -/
def given (k : Str) (p : Params) : Option Arg :=
  match PyDict.get k p with
  | none => none
  | some (.val .none) => none
  | some v => some v

/-- `fit(unix, host, port, **kw)` (pq3.py:3004-3041): the kind of connector made, and the keywords it is given. -/
def fit (W : World) (p : Params) : Except Err (Kind × Params) :=
  let kw := PyDict.erase "port".toList (PyDict.erase "host".toList (PyDict.erase "unix".toList p))
  match given "unix".toList p with
  | some u =>
    if given "host".toList p ≠ none then .error .typeError
    else if given "port".toList p ≠ none then .error .typeError
    else .ok (.unix, ("unix".toList, u) :: kw)
  | none =>
    match given "host".toList p, given "port".toList p with
    | some (.val (.text h)), some port =>
      let args := ("host".toList, .val (.text h)) :: ("port".toList, port) :: kw
      if h.contains ':' ∧ W.inet6 h then .ok (.ip6, args)
      else if W.inet4 h then .ok (.ip4, args)
      else .ok (.host, args)
    | _, _ => .error .typeError

/-- `open(iri, **kw)` (postgresql/__init__.py:38-95): the connector, and whether it is returned itself. -/
def open_ (W : World) (environ : List (Str × Str)) (iri : Option Str) (kw : Params) : Except Err (Bool × Kind × Params) :=
  match openParams W environ iri kw with
  | .error e => .error e
  | .ok (amp, p) => match fit W p with
    | .error e => .error e
    | .ok r => .ok (amp, r)

end PG.ClientParams
