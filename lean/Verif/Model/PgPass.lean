import Verif.Model.PyStr
/-!
# Model of `postgresql/pgpassfile.py`
-/
namespace PG.PgPass
open PG PG.PyStr

/-- pgpassfile.py:27: `(len(x) - len(x.rstrip('\\'))) % 2 == 1`. -/
def oddTrail (x : Str) : Bool := (x.length - (x.reverse.dropWhile (· = '\\')).length) % 2 = 1

/-- pgpassfile.py:15-28: the loop; `r` and `continuation`. -/
def splitLoop : List Str → Bool → List Str → List Str
  | r, _, [] => r
  | r, true, x :: l => splitLoop (r.dropLast ++ [(r.getLast?.getD []).dropLast ++ [':'] ++ undouble '\\' x]) (oddTrail x) l
  | r, false, x :: l => splitLoop (r ++ [undouble '\\' x]) (oddTrail x) l

/-- pgpassfile.py:9-32 `split`. -/
def split (U : Unicode) (line : Str) : Option (List Str) :=
  let line := strip U line
  if line = [] then none
  else
    let r := splitLoop [] false (PyStr.split ':' line)
    if r.length ≠ 5 then none else some r

/-- pgpassfile.py:34-40 `parse`: the password, and the other four fields. -/
def parse (U : Unicode) (data : List Str) : List (Str × List Str) :=
  (data.filterMap (split U)).map fun x => (x.getLast?.getD [], x.take 4)

/-- pgpassfile.py:48-55: the loop of `lookup_password`. The four fields are unpacked by position; any other number raises ValueError. -/
def lookupLoop (user host port database : Str) : List (Str × List Str) → Except Err (Option Str)
  | [] => .ok none
  | (word, [w_host, w_port, w_database, w_user]) :: l =>
    if (w_user = ['*'] ∨ w_user = user) ∧ (w_host = ['*'] ∨ w_host = host) ∧ (w_port = ['*'] ∨ w_port = port) ∧
        (w_database = ['*'] ∨ w_database = database) then .ok (some word)
    else lookupLoop user host port database l
  | _ :: _ => .error .valueError

/-- pgpassfile.py:42-55 `lookup_password(words, (user, host, port, database))`. -/
def lookupPassword (words : List (Str × List Str)) (uhpd : Str × Str × Str × Str) : Except Err (Option Str) :=
  lookupLoop uhpd.1 uhpd.2.1 uhpd.2.2.1 uhpd.2.2.2 words

/-- pgpassfile.py:57-62 `lookup_password_file`; the lines of the file. -/
def lookupPasswordFile (U : Unicode) (lines : List Str) (t : Str × Str × Str × Str) : Except Err (Option Str) := lookupPassword (parse U lines) t

/-- The parameters `lookup_pgpass` looks at, as `str()` gives them; `none` is a missing key. -/
structure Conf where
  user : Option Str
  host : Option Str
  port : Option Str
  database : Option Str

/-- pgpassfile.py:64-71 `lookup_pgpass`; `file` is `none` if the file does not exist. -/
def lookupPgpass (U : Unicode) (d : Conf) (file : Option (List Str)) : Except Err (Option Str) :=
  match file with
  | none => .ok none
  | some lines =>
    match d.user, d.host, d.port with
    | some user, some host, some port => lookupPasswordFile U lines (user, host, port, d.database.getD user)
    | _, _, _ => .error .keyError

end PG.PgPass
