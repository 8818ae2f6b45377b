import Verif.Model.RiParse
import Verif.Model.PgString
import Verif.Model.PyDict
/-!
# Model of `postgresql/iri.py`

A clientparams dictionary is the list of its items. No value is None.
-/
namespace PG.Iri
open PG PG.PyStr PG.RiParse PG.PgString

/-- The value of a setting; `null` is None. -/
inductive SVal where
  | text (s : Str)
  | list (l : List Str)
  | null
  deriving DecidableEq, Repr

/-- A value in a clientparams dictionary: a `str`, another object that is not `True` by its `str()`, `True`, a list of `str`, a dictionary of
settings, a list of pairs of settings. -/
inductive PVal where
  | text (s : Str)
  | obj (s : Str)
  | yes
  | list (l : List Str)
  | dict (d : List (Str × SVal))
  | pairs (d : List (Str × SVal))
  deriving DecidableEq, Repr

/-- A clientparams dictionary. -/
abbrev Params := List (Str × PVal)

/-- What is taken from Python: the Unicode database, the expansion of a replacement template by `re.sub` (an error for a bad escape),
and `str()` of containers. -/
structure Env where
  U : Unicode
  repl : Str → Except Err Str
  repl_plain : ∀ s, '\\' ∉ s → repl s = .ok s
  str : PVal → Str

/-- `str(v)`. -/
def strOf (E : Env) : PVal → Str
  | .text s => s
  | .obj s => s
  | v => E.str v

/-- `s.startswith('[') and s.endswith(']')`. -/
def bracketed (s : Str) : Bool := s.head? = some '[' && s.getLast? = some ']'

/-- `s[1:-1]`. -/
def inner (s : Str) : Str := (s.drop 1).dropLast

/-- iri.py:33 -/
def schemeOk (U : Unicode) (scheme : Option Str) : Bool :=
  ["pq".toList, "postgres".toList, "postgresql".toList].contains (U.lower (scheme.getD "pq".toList))

/-- An item if there is a value. -/
def item (k : Str) : Option Str → Params
  | none => []
  | some v => [(k, .text v)]

/-- iri.py:45-53: the host. -/
def hostItem (fieldproc : Str → Str) : Option Str → Params
  | none => []
  | some h =>
    if bracketed h then
      (if "unix:".toList.isPrefixOf (inner h) then [("unix".toList, .text (((inner h).drop 5).map fun c => if c = ':' then '/' else c))]
       else [("host".toList, .text (inner h))])
    else [("host".toList, .text (fieldproc h))]

/-- iri.py:55-61: the database and the rest of the path; neither is unescaped. -/
def pathItems : Option (List Str) → Params
  | none => []
  | some [] => []
  | some (d :: l) => (if d = [] then [] else [("database".toList, .text d)]) ++ (if l = [] then [] else [("path".toList, .list l)])

/-- iri.py:69-77: a parameter of the query; `fieldproc(None)` raises TypeError. -/
def queryStep (fieldproc : Str → Str) (cpd : Params) (settings : List (Str × SVal)) (k : Str) (v : Option Str) :
    Except Err (Params × List (Str × SVal)) :=
  if bracketed k then
    (if inner k ≠ "settings".toList ∧ PyDict.get (inner k) cpd = none then
      (match v with
        | none => .error .typeError
        | some v => .ok (PyDict.set (fieldproc (inner k)) (.text (fieldproc v)) cpd, settings))
     else .ok (cpd, settings))
  else if k ≠ [] then
    (match v with
      | none => .error .typeError
      | some v => .ok (cpd, PyDict.set (fieldproc k) (.text (fieldproc v)) settings))
  else .ok (cpd, settings)

/-- iri.py:69-77: the loop. -/
def queryLoop (fieldproc : Str → Str) : Params → List (Str × SVal) → List (Str × Option Str) → Except Err (Params × List (Str × SVal))
  | cpd, settings, [] => .ok (cpd, settings)
  | cpd, settings, (k, v) :: q =>
    match queryStep fieldproc cpd settings k v with
    | .error e => .error e
    | .ok (cpd, settings) => queryLoop fieldproc cpd settings q

/-- iri.py:79-82: the search path of the fragment. -/
def fragSettings (fieldproc : Str → Str) (frag : Option Str) (settings : List (Str × SVal)) : List (Str × SVal) :=
  match frag with
  | none => settings
  | some [] => settings
  | some f => PyDict.set "search_path".toList (.list ((PyStr.split ',' f).map fieldproc)) settings

/-- iri.py:29-87 `structure`. -/
def structure_ (E : Env) (fieldproc : Str → Str) (d : RiParse.Dict) : Except Err Params :=
  if schemeOk E.U d.scheme then
    let cpd := item "user".toList (d.user.map fieldproc) ++ item "password".toList (d.password.map fieldproc) ++ item "port".toList (d.port.map fieldproc)
      ++ hostItem fieldproc d.host ++ pathItems d.path
    match queryLoop fieldproc cpd [] (d.query.getD []) with
    | .error e => .error e
    | .ok (cpd, settings) =>
      let settings := fragSettings fieldproc d.fragment settings
      .ok (if settings = [] then cpd else PyDict.set "settings".toList (.dict settings) cpd)
  else .error .valueError

/-- iri.py:89-93 `construct_path` -/
def constructPath (x : List Str) : Str := join [','] (x.map (escapeWith [',']))

/-- iri.py:101-115: the settings but the search path, and the search path, which is never found in a list of pairs. -/
def splitSettings : Option PVal → Except Err (List (Str × SVal) × Option SVal)
  | none => .ok ([], none)
  | some (.dict d) => .ok (d.filter (fun e => e.1 ≠ "search_path".toList), PyDict.get "search_path".toList d)
  | some (.pairs d) => .ok (d.filter (fun e => e.1 ≠ "search_path".toList), none)
  | some (.list []) => .ok ([], none)
  | some (.list _) => .error .valueError
  | some (.text []) => .ok ([], none)
  | some (.text _) => .error .valueError
  | some _ => .error .typeError

/-- iri.py:117-119 -/
def searchPath (E : Env) : Option SVal → Except Err (Option (List Str))
  | none => .ok none
  | some .null => .ok none
  | some (.list l) => .ok (some l)
  | some (.text s) => match splitIdent E.U s ',' '"' (-1) with | .ok l => .ok (some l) | .error e => .error e

/-- iri.py:121-132: the host. The port computed there is not used. -/
def hostText (x : Params) : Except Err (Option Str) :=
  match PyDict.get "unix".toList x with
  | some (.text u) => .ok (some ("[unix:".toList ++ (u.map fun c => if c = '/' then ':' else c) ++ [']']))
  | some _ => .error .attributeError
  | none =>
    match PyDict.get "host".toList x with
    | some (.text h) => .ok (some (if h.contains ':' then '[' :: h ++ [']'] else h))
    | some _ => .error .typeError
    | none => .ok none

/-- A `str` or nothing, else TypeError (of the `re.sub` it is given to). -/
def textOf : Option PVal → Except Err (Option Str)
  | none => .ok none
  | some (.text s) => .ok (some s)
  | some _ => .error .typeError

/-- iri.py:137-138: what `path.extend` adds. -/
def pathOf : Option PVal → Except Err (List Str)
  | none => .ok []
  | some (.list l) => .ok l
  | some (.text s) => .ok (s.map fun c => [c])
  | some _ => .error .typeError

/-- iri.py:144-147: the keys that are not driver parameters. -/
def notDriver : List Str :=
  ["user".toList, "password".toList, "port".toList, "database".toList, "ssl".toList, "path".toList, "host".toList, "unix".toList, "ipv".toList, "settings".toList]

/-- iri.py:142-149: the driver parameters. -/
def driverParams (E : Env) (x : Params) : List (Str × Str) :=
  ((x.filter fun e => !notDriver.contains e.1).map fun e => ('[' :: e.1 ++ [']'], strOf E e.2)).mergeSort fun a b => decide (¬ b.1 < a.1)

/-- iri.py:160-163: the path, joined after `ri.escape_path_re.sub(path_comp, '/')`, whose arguments are swapped: the component is the replacement
template, and the text the slash, all of which matches. -/
def pathText (E : Env) : List Str → Except Err (List Str)
  | [] => .ok []
  | c :: l =>
    match E.repl c, pathText E l with
    | .ok c, .ok l => .ok (c :: l)
    | .error e, _ => .error e
    | _, .error e => .error e

/-- The settings, as `construct_query` takes them. -/
def settingItems : List (Str × SVal) → Except Err (List (Str × Option Str))
  | [] => .ok []
  | (k, v) :: l =>
    match v, settingItems l with
    | .text s, .ok l => .ok ((k, some s) :: l)
    | .null, .ok l => .ok ((k, none) :: l)
    | .list _, _ => .error .typeError
    | _, .error e => .error e

/-- iri.py:164-170: the query, of driver parameters and settings. -/
def queryText (dp : List (Str × Str)) (ss : List (Str × Option Str)) : Option Str :=
  let q := dp.map (fun e => (e.1, some e.2)) ++ ss
  if q = [] then none else some (constructQuery q)

/-- iri.py:139-141: the password, or three stars for it. -/
def shownPassword (obscure : Bool) (p : Option PVal) : Option PVal :=
  match p with
  | none => none
  | some v => some (if obscure then .text "***".toList else v)

/-- iri.py:95-172 `construct`. Without a user the password is not looked at (riparse.py:281-286). -/
def construct (E : Env) (obscure : Bool) (x : Params) : Except Err Ri := do
  let s ← splitSettings (PyDict.get "settings".toList x)
  let sp ← searchPath E s.2
  let host ← hostText x
  let db ← textOf (PyDict.get "database".toList x)
  let more ← pathOf (PyDict.get "path".toList x)
  let user ← textOf (PyDict.get "user".toList x)
  let password ← textOf (if user = none then none else shownPassword obscure (PyDict.get "password".toList x))
  let path ← pathText E (db.toList ++ more)
  let ss ← settingItems s.1
  return {
    scheme := some (if PyDict.get "ssl".toList x = some .yes then "pqs".toList else "pq".toList)
    netloc := unsplitNetloc ⟨user, password, host, (PyDict.get "port".toList x).map (strOf E)⟩
    path := if db.toList ++ more = [] then none else some (join ['/'] path)
    query := queryText (driverParams E x) ss
    fragment := sp.map constructPath }

/-- iri.py:174-185 `parse`. -/
def parse (E : Env) (fieldproc : Str → Str) (s : Str) : Except Err Params := structure_ E fieldproc (RiParse.parse id s)

/-- iri.py:187-191 `serialize`. -/
def serialize (E : Env) (obscure : Bool) (x : Params) : Except Err Str := do
  let r ← construct E obscure x
  return unsplit r

end PG.Iri
