import Verif.Model.ClientParams
/-!
# Where a client parameter comes from (documentation/clientparameters.rst, documentation/driver.rst)

Of all the sources that give a parameter, or a setting, the strongest one counts. Each source is described on its own, as a function from what is asked for
to the value it gives, if it gives one.
-/
namespace PG.Spec.ClientParams
open PG PG.ClientParams

/-- What is asked for: a parameter by its name, or a setting of the session. -/
inductive Key where
  | param (k : Str)
  | setting (k : Str)
  deriving DecidableEq

/-- The names of parameters; `settings` is not one of them, but the dictionary of all the settings. -/
def Key.Proper (key : Key) : Prop := key ≠ .param "settings".toList

instance (key : Key) : Decidable key.Proper := inferInstanceAs (Decidable (key ≠ _))

/-- Python's dictionaries have no key twice. -/
def IsDict {α : Type} (d : List (Str × α)) : Prop := (d.map Prod.fst).Nodup

/-- A dictionary of parameters; a dictionary of settings in it is one, too. -/
structure Ok (p : Params) : Prop where
  keys : IsDict p
  settings : ∀ d, PyDict.get "settings".toList p = some (.dict d) → IsDict d

/-- What a dictionary of parameters says. -/
def value (p : Params) : Key → Option Arg
  | .param k => PyDict.get k p
  | .setting k => match PyDict.get "settings".toList p with
    | some (.dict d) => (PyDict.get k d).map .val
    | _ => none

/-- The strongest of the sources, which stand from the strongest to the weakest. -/
def strongest (l : List (Option Arg)) : Option Arg := l.findSome? id

/-! ### The environment -/

/-- The variable, after the prefix, of a parameter. -/
def variableOf : Str → Option Str := fun k =>
  if k = "user".toList then some "USER".toList
  else if k = "database".toList then some "DATABASE".toList
  else if k = "host".toList then some "HOST".toList
  else if k = "port".toList then some "PORT".toList
  else if k = "password".toList then some "PASSWORD".toList
  else if k = "sslmode".toList then some "SSLMODE".toList
  else if k = "sslkey".toList then some "SSLKEY".toList
  else if k = "connect_timeout".toList then some "CONNECT_TIMEOUT".toList
  else if k = "kerberos4_realm".toList then some "REALM".toList
  else if k = "kerberos5_service".toList then some "KRBSRVNAME".toList
  else if k = "pgpassfile".toList then some "PASSFILE".toList
  else none

/-- What the environment says: the address stands before the host, the SSL mode before the older variable for it. -/
def envSays (W : World) (environ : List (Str × Str)) (pre : Str) : Key → Option Arg
  | .setting _ => none
  | .param k => strongest [
      if k = "host".toList then (PyDict.get (pre ++ "HOSTADDR".toList) environ).map fun v => .val (.text v) else none,
      (variableOf k).bind fun n => (PyDict.get (pre ++ n) environ).map fun v => .val (.text v),
      if k = "sslmode".toList ∧ (PyDict.get (pre ++ "REQUIRESSL".toList) environ).map (PyStr.strip W.E.U) = some ['1'] then
        some (.val (.pair "require".toList (pre ++ "REQUIRESSL=1".toList))) else none]

/-! ### Services -/

/-- The parameters of a connection an entry of a service may give. -/
def driverParameters : List Str :=
  ["user", "host", "database", "port", "password", "sslcrtfile", "sslkeyfile", "sslrootcrtfile", "sslrootkeyfile", "sslmode",
   "server_encoding", "connect_timeout"].map String.toList

/-- What an entry of a service is for. -/
def entryFor (W : World) (name : Str) : Key :=
  let k := W.E.U.lower name
  if k = "hostaddr".toList then .param "host".toList
  else if k = "dbname".toList then .param "database".toList
  else if k ∈ driverParameters then .param k
  else .setting k

/-- What the entries of a service say: the last one for it counts; an entry `pg_service` is for nothing. -/
def entriesSay (W : World) (entries : List (Str × Str)) (key : Key) : Option Arg :=
  ((entries.filter fun e => W.E.U.lower e.1 ≠ "pg_service".toList ∧ entryFor W e.1 = key).getLast?).map fun e => .val (.text e.2)

/-- The entries of a service: of the first of the files that exists and has it. -/
def serviceIn (W : World) (name : Str) (files : List Str) : Option (List (Str × Str)) :=
  files.findSome? fun f => if W.pathExists f = true then (match W.service f name with | .ok s => s | .error _ => none) else none

/-- The files services are looked up in: the user's own, for which another one may stand, and the one of the system. -/
def filesFor (W : World) (own : Option Str) (system : Option Str) : List Str :=
  [own.getD (pathJoin (W.home W.user) ".pg_service.conf".toList)] ++
    match system with
    | some d => if d = [] then [] else [pathJoin d "pg_service.conf".toList]
    | none => []

/-- What the service named by the environment says. -/
def serviceSays (W : World) (c : Collect) (key : Key) : Option Arg :=
  match c.environ with
  | none => none
  | some environ =>
    match PyDict.get (c.pre ++ "SERVICE".toList) environ with
    | none => none
    | some name =>
      match serviceIn W name (filesFor W ((PyDict.get "PGSERVICEFILE".toList environ).or c.serviceFile) ((PyDict.get "PGSYSCONFDIR".toList environ).or c.sysconfdir)) with
      | some entries => entriesSay W entries key
      | none => none

/-! ### Options of the command line -/

/-- What one option says. -/
def optionSays (W : World) (o : Opt) (key : Key) : Option Arg :=
  match o with
  | .username v => if key = .param "user".toList then some (.val (.text v)) else none
  | .database v => if key = .param "database".toList then some (.val (.text v)) else none
  | .password => if key = .param "prompt_password".toList then some (.val (.bool true)) else none
  | .host v => if key = .param "host".toList then some (.val (.text v)) else none
  | .port v => if key = .param "port".toList then some (.val (.text v)) else none
  | .unix v => if key = .param "unix".toList then some (.val (.text v)) else none
  | .sslmode v => if key = .param "sslmode".toList then some (.val (.text v)) else none
  | .setting v => if key = .setting (v.takeWhile (· ≠ '=')) then some (.val (.text ((v.dropWhile (· ≠ '=')).drop 1))) else none
  | .iri s => match iriParams W s with
    | .ok p => value p key
    | .error _ => none

/-- Of the options, the last one that says something counts. -/
def optionsSay (W : World) (os : List Opt) (key : Key) : Option Arg := os.reverse.findSome? fun o => optionSays W o key

/-! ### Defaults -/

/-- The files used if they exist. -/
def defaultFile (W : World) (k : Str) : Option Str :=
  let user := if W.user = [] then "postgres".toList else W.user
  let home := if W.home user = [] then "/dev/null".toList else W.home user
  let dir := pathJoin home ".postgresql".toList
  if k = "sslcrtfile".toList then some (pathJoin dir "postgresql.crt".toList)
  else if k = "sslkeyfile".toList then some (pathJoin dir "postgresql.key".toList)
  else if k = "sslrootcrtfile".toList then some (pathJoin dir "root.crt".toList)
  else if k = "sslrootcrlfile".toList then some (pathJoin dir "root.crl".toList)
  else if k = "pgpassfile".toList then some (pathJoin home ".pgpass".toList)
  else none

def defaultSays (W : World) : Key → Option Arg
  | .setting _ => none
  | .param k =>
    if k = "user".toList then some (.val (.text W.user))
    else if k = "host".toList then some (.val (.text "localhost".toList))
    else if k = "port".toList then some (.val (.int 5432))
    else (defaultFile W k).bind fun f => if W.pathExists f then some (.val (.text f)) else none

/-! ### `open` -/

/-- The IRI without the `&` that asks for the connector itself. -/
def bare (s : Str) : Str := if s.head? = some '&' then s.drop 1 else s

/-- What the IRI says; the parts of its path after the database are not used. -/
def iriSays (W : World) (iri : Option Str) (key : Key) : Option Arg :=
  if key = .param "path".toList then none
  else match iri with
    | none => none
    | some s => match iriParams W (bare s) with
      | .ok p => value p key
      | .error _ => none

/-- The keys that are only used to find the password. -/
def helpers : List Str := ["prompt_password".toList, "pgpassfile".toList, "prompt_title".toList]

/-- What is written for a parameter: a text itself, and any other value as `str()` shows it. -/
def written (W : World) (p : Params) (k : String) : Option Str :=
  match value p (.param k.toList) with
  | none => none
  | some (.val (.text s)) => some s
  | some v => some (W.str v)

/-- The line of the password file that is looked for: the one for the user, host, port and database of the parameters. -/
def passwordEntry (W : World) (p : Params) : PgPass.Conf where
  user := written W p "user"
  host := written W p "host"
  port := written W p "port"
  database := written W p "database"

/-- What the user types as the password: a terminal's line, or a line without its end. -/
def typed : Stdin → Str
  | .tty a => a
  | .line s => if s.getLast? = some '\n' then s.dropLast else s

/-- There, and not `None`. -/
def Given (v : Option Arg) : Prop := v ≠ none ∧ v ≠ some (.val .none)

instance (v : Option Arg) : Decidable (Given v) := inferInstanceAs (Decidable (_ ∧ _))

end PG.Spec.ClientParams
