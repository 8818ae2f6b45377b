import Verif.Model.Prepare
import Verif.Model.TypeIo
import Verif.Model.SqlText
/-!
# Model of stored procedures: `StoredProcedure` and `TypeIO.sql_type_from_oid` in `postgresql/driver/pq3.py`

What the catalog says about the function and its types is a parameter. Not modelled: the queries that look it up, `__repr__`, the texts of errors.
-/
namespace PG.Procedure
open PG PG.PyStr PG.PgString PG.SqlText PG.Element3 PG.Xact3 PG.Fetch PG.Statement PG.Prepare

/-! ## Names of types -/

/-- types/__init__.py:100-133 `oid_to_sql_name`. -/
def oidToSqlName : List (Nat × String) :=
  [(1042, "CHARACTER"), (1043, "CHARACTER VARYING"), (16, "BOOLEAN"), (21, "SMALLINT"), (23, "INTEGER"), (20, "BIGINT"),
   (1700, "NUMERIC"), (700, "REAL"), (701, "DOUBLE PRECISION"), (1083, "TIME WITHOUT TIME ZONE"), (1266, "TIME WITH TIME ZONE"), (1114, "TIMESTAMP WITHOUT TIME ZONE"),
   (1184, "TIMESTAMP WITH TIME ZONE"), (1082, "DATE"), (1186, "INTERVAL"), (142, "XML")]

/-- types/__init__.py:136-224 `oid_to_name`. -/
def oidToName : List (Nat × String) :=
  [(2249, "record"), (16, "bool"), (1560, "bit"), (1562, "varbit"), (1033, "aclitem"), (18, "char"), (19, "name"), (25, "text"), (17, "bytea"), (1042, "bpchar"),
   (1043, "varchar"), (2275, "cstring"), (705, "unknown"), (1790, "refcursor"), (2950, "uuid"), (3614, "tsvector"), (3642, "gtsvector"), (3615, "tsquery"), (3734, "regconfig"), (3769, "regdictionary"),
   (142, "xml"), (114, "json"), (3802, "jsonb"), (829, "macaddr"), (869, "inet"), (650, "cidr"), (71, "type"), (81, "proc"), (83, "class"), (75, "attribute"),
   (1082, "date"), (1083, "time"), (1114, "timestamp"), (1184, "timestamptz"), (1186, "interval"), (1266, "timetz"), (702, "abstime"), (703, "reltime"), (704, "tinterval"), (20, "int8"),
   (21, "int2"), (23, "int4"), (26, "oid"), (27, "tid"), (28, "xid"), (29, "cid"), (790, "cash"), (700, "float4"), (701, "float8"), (1700, "numeric"),
   (600, "point"), (628, "line"), (601, "lseg"), (602, "path"), (603, "box"), (604, "polygon"), (718, "circle"), (30, "oidvector"), (22, "int2vector"), (1007, "int4array"),
   (24, "regproc"), (2202, "regprocedure"), (2203, "regoper"), (2204, "regoperator"), (2205, "regclass"), (2206, "regtype"), (2211, "regtypearray"), (2279, "trigger"), (2280, "language_handler"), (2281, "internal"),
   (2282, "opaque"), (2278, "void"), (2277, "anyarray"), (2283, "anyelement"), (2276, "any"), (2776, "anynonarray"), (3500, "anyenum")]

/-- types/io/__init__.py:21-85 `io_modules`: the types with routines of their own. -/
def builtinOids : List Nat :=
  [16, 18, 17, 21, 23, 20, 700, 701, 702, 1560, 1562, 829, 869, 650, 26, 28, 29, 27, 600, 601, 603, 718, 1082, 1186, 1083, 1266, 1114, 1184, 1700, 2950, 142, 3802]

/-- `d.get(k)`. -/
def lookup {γ : Type} (d : List (Nat × γ)) (t : Nat) : Option γ := (d.find? fun e => e.1 = t).map Prod.snd

/-- The dictionaries of `TypeIO`: `_cache`, and `typinfo` with the namespace and the name. -/
structure Known where
  cache : TypeIo.Cache
  typinfo : List (Nat × Str × Str)

/-- pq3.py:123-142 `__init__`. -/
def Known.initial : Known := ⟨TypeIo.initialCache, []⟩

/-- pq3.py:267-281, as in the model of type I/O, with both dictionaries. -/
def resolveFields (base : Nat → Nat) (rec : Known → Nat → Except TypeIo.Err TypeIo.Io × Known) : Known → List (Nat × Bool) → Except TypeIo.Err (List TypeIo.Io) × Known
  | k, [] => (.ok [], k)
  | k, (t, dom) :: fs =>
    match rec k (if dom then base t else t) with
    | (.error e, k) => (.error e, k)
    | (.ok io, k) =>
      match resolveFields base rec k fs with
      | (.error e, k) => (.error e, k)
      | (.ok ios, k) => (.ok (io :: ios), k)

/-- `self._cache[typid] = io`. -/
def Known.put (k : Known) (t : Nat) (io : TypeIo.Io) : Known := { k with cache := (t, io) :: k.cache }

/-- pq3.py:229-325 `resolve`, as in the model of type I/O, with `typinfo` (258-261), which is set before the parts of the type are resolved. `names` is the namespace and the name in the catalog. -/
def resolve (env : TypeIo.Env) (names : Nat → Str × Str) : Nat → List Nat → Known → Nat → Except TypeIo.Err TypeIo.Io × Known
  | 0, _, k, _ => (.error .recursion, k)
  | fuel + 1, from_, k, t =>
    if from_.contains t then (.error .typeError, k)
    else
      match k.cache.get t with
      | some io => (.ok io, k)
      | none =>
        if env.builtin t then (.ok (.builtin t), k.put t (.builtin t))
        else
          match env.cat t with
          | none => (.ok (.str t), k)
          | some (.composite fs) =>
            match resolveFields env.base (resolve env names fuel (from_ ++ [t])) { k with typinfo := (t, names t) :: k.typinfo } fs with
            | (.error e, k) => (.error e, k)
            | (.ok ios, k) => (.ok (.record t ios), k.put t (.record t ios))
          | some (.array el i o) =>
            match resolve env names fuel (from_ ++ [t]) { k with typinfo := (t, names t) :: k.typinfo } el with
            | (.error e, k) => (.error e, k)
            | (.ok io, k) => (.ok (.array t io i o), k.put t (.array t io i o))
          | some .domain =>
            match resolve env names fuel (from_ ++ [t]) { k with typinfo := (t, names t) :: k.typinfo } (env.base t) with
            | (.error e, k) => (.error e, k)
            | (.ok io, k) => (.ok io, k.put t io)
          | some .anonymous => (.ok (.anonymous t), Known.put { k with typinfo := (t, names t) :: k.typinfo } t (.anonymous t))
          | some .other => (.ok (.str t), Known.put { k with typinfo := (t, names t) :: k.typinfo } t (.str t))

/-- pq3.py:332-347 `identify`, for one type: the routines of the module. -/
def identify (k : Known) (t : Nat) : Known := k.put t (.builtin t)

/-- pq3.py:199-210 `sql_type_from_oid`. -/
def sqlType (k : Known) (t : Nat) : Option Str :=
  match lookup oidToSqlName t with
  | some s => some s.toList
  | none => match lookup k.typinfo t with
    | some (nsp, name) => some (quoteIdent nsp ++ '.' :: quoteIdent name)
    | none => match lookup oidToName t with
      | some s => if s = "" then none else some ("pg_catalog.".toList ++ s.toList)
      | none => none

/-! ## The text -/

/-- `'%s' % x`. -/
def percentS : Option Str → Str
  | some s => s
  | none => "None".toList

/-- pq3.py:1925-1928: an argument; `x` counts from 0. -/
def argText (x : Nat) (t : Option Str) : Str := '$' :: Nat.toDigits 10 (x + 1) ++ "::".toList ++ percentS t

/-- pq3.py:1925-1928: from position `x`. -/
def argTexts (x : Nat) : List (Option Str) → List Str
  | [] => []
  | t :: ts => argText x t :: argTexts (x + 1) ts

/-- `sep.join(l)`. -/
def join (sep : Str) : List Str → Str
  | [] => []
  | [x] => x
  | x :: y :: l => x ++ sep ++ join sep (y :: l)

/-- pq3.py:1929-1931: `description and '(' + ','.join(description) + ')' or ''`. -/
def descriptionText (description : List Str) : Str := if description = [] then [] else '(' :: (join [','] description ++ [')'])

/-- pq3.py:1922-1932. -/
def procText (proid : Str) (types : List (Option Str)) (description : List Str) : Str :=
  "SELECT * FROM ".toList ++ proid ++ '(' :: (join ", ".toList (argTexts 0 types) ++ ") AS func".toList ++ descriptionText description)

/-! ## The object -/

/-- What is used of the row of `pg_proc` (lib/libsys.sql:80-92): the name of the function as `regproc` writes it; `proargnames` (NULL: `[]`); `proargtypes`; `proretset`; `composite`. -/
structure ProcTup where
  proid : Str
  argnames : List (Option Str)
  argtypes : List Nat
  retset : Bool
  composite : Bool

/-- pq3.py:1907-1912: `_input_attmap`; `i` is the next position. -/
def inputAttmap (d : List (Str × Nat)) (i : Nat) : List (Option Str) → List (Str × Nat)
  | [] => d
  | none :: ns => inputAttmap d (i + 1) ns
  | some n :: ns => inputAttmap (PyDict.set n i d) (i + 1) ns

/-- pq3.py:1914-1917. -/
def resolveAll (env : TypeIo.Env) (names : Nat → Str × Str) (fuel : Nat) : Known → List Nat → Except TypeIo.Err Unit × Known
  | k, [] => (.ok (), k)
  | k, t :: ts =>
    match resolve env names fuel [] k t with
    | (.error e, k) => (.error e, k)
    | (.ok _, k) => resolveAll env names fuel k ts

/-- pq3.py:1914-1932: the text for the statement. -/
def textOf (k : Known) (p : ProcTup) (description : List Str) : Str := procText p.proid (p.argtypes.map (sqlType k)) description

/-- A procedure: its statement (`π`), the names of its parameters, and its kind. -/
structure Proc' (π : Type) where
  statement : π
  attmap : List (Str × Nat)
  srf : Bool
  composite : Bool

/-- How making the object ends. -/
inductive Proced (π : Type) where
  | made (p : Proc' π)
  | lookupError
  | raised
  | blocked

/-- pq3.py:1895-1936 `__init__`; `found` is the row of the catalog, if there is one; `bs` the reply to preparing. -/
def construct {ν α β : Type} [DecidableEq ν] (env : TypeIo.Env) (names : Nat → Str × Str) (fuel : Nat) (T : Typio Str ν α β) (id : Bytes) (k : Known) (found : Option ProcTup) (description : List Str) (bs : List Batch) :
    List Elem × Proced (Prepared ν α β) × Known :=
  match found with
  | none => ([], .lookupError, k)
  | some p =>
    match resolveAll env names fuel k p.argtypes with
    | (.error _, k) => ([], .raised, k)
    | (.ok _, k) =>
      match prepare T id (some (textOf k p description)) bs with
      | (cs, .raised) => (cs, .raised, k)
      | (cs, .blocked) => (cs, .blocked, k)
      | (cs, .prepared s) => (cs, .made ⟨s, inputAttmap [] 0 p.argnames, p.retset, p.composite⟩, k)

/-! ## Calling it -/

/-- What a call gives. `other` is a part of what a statement without columns returns. -/
inductive Ret (β : Type) where
  | row (r : List (Option β))
  | value (v : Option β)
  | other
  | indexError
  | raised
  | blocked
  /-- `k.message` of the KeyError (1867) -/
  | attributeError
  /-- `argc` (1872) -/
  | nameError
  deriving DecidableEq, Repr

/-- pq3.py:1890-1894: `self.statement(*input)[0]`, and `[0]` of that. -/
def firstOf' {β : Type} (composite : Bool) : Called β → Ret β
  | .rows [] => .indexError
  | .rows (r :: _) => if composite then .row r else match r with
    | v :: _ => .value v
    | [] => .indexError
  | .command _ _ => .other
  | .lines [] => .indexError
  | .lines (_ :: _) => .other
  | .raised => .raised
  | .blocked => .blocked

/-- pq3.py:1859-1880: the part for keywords; `none` if there are none. -/
def keywords {α β : Type} (attmap : List (Str × Nat)) (kw : List (Str × Option α)) : Option (Ret β) :=
  if kw = [] then none
  else if kw.all fun e => (PyDict.get e.1 attmap).isSome then some .nameError
  else some .attributeError

/-- pq3.py:1859-1880, 1889-1894 `__call__` of a function that does not return a set. -/
def call {ν α β : Type} [DecidableEq α] (p : Proc' (Prepared ν α β)) (args : List (Option α)) (kw : List (Str × Option α)) (bs : List Batch) : List Elem × Ret β :=
  match keywords (β := β) p.attmap kw with
  | some r => ([], r)
  | none => match callPrepared p.statement args bs with
    | (cs, r) => (cs, firstOf' p.composite r)

/-- `get0` of a row. -/
def get0 {β : Type} : List (Option β) → Option (Option β)
  | v :: _ => some v
  | [] => none

/-- pq3.py:1609-1635 `chunks`, 1602-1606 `rows`: which stream is used, for a statement whose text is known; `inBlock` is `pq.state != b'I'`. -/
def wayOf (inBlock : Bool) : Way := if inBlock then .execute else .fetch

/-- pq3.py:981: `chunksize`. -/
def chunksize : Nat := 1024 * 4

/-- What the iterator of a set-returning function gives: rows, or first columns. -/
inductive Item (β : Type) where
  | row (r : List (Option β))
  | value (v : Option β)
  deriving DecidableEq, Repr

/-- pq3.py:1881-1888: what becomes of a row (`map(get0, ...)`); `none` is an exception. Rows of a chunk before one that fails are lost here (`map` is per row, decoding is per chunk). -/
def item {β : Type} (composite : Bool) (unpack : List (Bytes → Except Err β)) (t : List (Option Bytes)) : Option (Item β) :=
  match Row.processTuple unpack t with
  | .error _ => none
  | .ok r => if composite then some (.row r) else (get0 r).map .value

/-- pq3.py:1881-1888 `__call__` of a function that returns a set, called with the right parameters: the iterator, run to its end. -/
def callSet {ν α β : Type} (p : Proc' (Prepared ν α β)) (inBlock : Bool) (portal : Portal (List (Option Bytes))) (sched : List Between) : List (Item β) × Fetch.Out (Item β) :=
  let r := iterateMulti (perRow (item p.composite (p.statement.outputIo.getD []))) sched (start (wayOf inBlock) portal chunksize)
  (r.1.flatten, r.2.1)

end PG.Procedure
