import Verif.Model.PyStr
/-!
# Model of `postgresql/resolved/riparse.py`
-/
namespace PG.RiParse
open PG PG.PyStr

/-- The digits of '%0.2X'. -/
def hexDigit (n : Nat) : Char := if n < 10 then Char.ofNat (48 + n) else Char.ofNat (55 + n)

/-- riparse.py:45 `pct_encode`, of the code of a character below 256. -/
def pctEncode (c : Char) : Str := ['%', hexDigit (c.toNat / 16), hexDigit (c.toNat % 16)]

/-- riparse.py:46 `unescaped`, as a test. -/
def unescapedChar (c : Char) : Bool := c = '%' || c.toNat < 33

/-- riparse.py:48-57: `escape_…_re.sub(re_pct_encode, s)` for the class of `unescaped` and the given characters. -/
def escapeWith (extra : List Char) (s : Str) : Str := s.flatMap fun c => if unescapedChar c || extra.contains c then pctEncode c else [c]

/-- riparse.py:49 -/
def escapeAny : Str → Str := escapeWith []
/-- riparse.py:50 -/
def escapeUser : Str → Str := escapeWith [':', '@', '/', '?', '#']
/-- riparse.py:51 -/
def escapePassword : Str → Str := escapeWith ['@', '/', '?', '#']
/-- riparse.py:52 -/
def escapeHost : Str → Str := escapeWith ['/', '?', '#']
/-- riparse.py:53 -/
def escapePort : Str → Str := escapeWith ['/', '?', '#']
/-- riparse.py:54 -/
def escapePath : Str → Str := escapeWith ['/', '?', '#']
/-- riparse.py:55 -/
def escapeQueryKey : Str → Str := escapeWith ['&', '=', '#']
/-- riparse.py:56 -/
def escapeQueryValue : Str → Str := escapeWith ['&', '#']

/-- riparse.py:58-64: the value of a hexadecimal digit of either case. -/
def hexVal (c : Char) : Option Nat :=
  if '0' ≤ c ∧ c ≤ '9' then some (c.toNat - 48)
  else if 'A' ≤ c ∧ c ≤ 'F' then some (c.toNat - 55)
  else if 'a' ≤ c ∧ c ≤ 'f' then some (c.toNat - 87)
  else none

/-- riparse.py:58-64 `percent_escapes.get`, of two characters. -/
def percentEscape (a b : Char) : Option Nat :=
  match hexVal a, hexVal b with
  | some x, some y => some (x * 16 + y)
  | _, _ => none

/-- riparse.py:69-95 `unescape` of a `str`. -/
def unescape : Str → Str
  | [] => []
  | c :: s =>
    if c = '%' then
      match s with
      | a :: b :: t =>
        match percentEscape a b with
        | some v => Char.ofNat v :: unescape t
        | none => '%' :: unescape (a :: b :: t)
      | s => '%' :: unescape s
    else c :: unescape s

/-- `s.find(t)` for a text. -/
def findStr (t : Str) : Str → Option Nat
  | [] => if t = [] then some 0 else none
  | c :: s => if t.isPrefixOf (c :: s) then some 0 else (findStr t s).map (· + 1)

/-- riparse.py:66, 126-132: the characters of a scheme. -/
def schemeChar (c : Char) : Bool := "-.+0123456789".toList.contains c || ('A' ≤ c && c ≤ 'Z') || ('a' ≤ c && c ≤ 'z')

/-- A split RI. -/
structure Ri where
  scheme : Option Str
  netloc : Option Str
  path : Option Str
  query : Option Str
  fragment : Option Str
  deriving DecidableEq, Repr

/-- riparse.py:118-133: the scheme, and where the rest begins. -/
def splitScheme (s : Str) : Option Str × Nat :=
  match findStr [':', '/', '/'] s with
  | none => (none, 0)
  | some i => if (s.take i).all schemeChar then (some (s.take i), i + 3) else (none, 0)

/-- riparse.py:143-149: the place of the query, and what the places of the path and the end of the net location become. -/
def withQuery (query path : Option Nat) (eon : Nat) : Option Nat × Nat :=
  match query with
  | none => (path, eon)
  | some q =>
    match path with
    | none => (none, q)
    | some p => if q < p then (none, q) else (path, eon)

/-- riparse.py:155-156 -/
def dropQuery (f : Nat) (query : Option Nat) : Option Nat :=
  match query with
  | some q => if f < q then none else some q
  | none => none

/-- riparse.py:157-159 -/
def dropPath (f : Nat) (path : Option Nat) (eon : Nat) : Option Nat × Nat :=
  match path with
  | some p => if f < p then (none, f) else (some p, eon)
  | none => (none, eon)

/-- riparse.py:151-161: the places of the query, the path and the end of the net location once the fragment's is known. -/
def withFragment (fragment query path : Option Nat) (eon : Nat) : Option Nat × Option Nat × Nat :=
  match fragment with
  | none => (query, path, eon)
  | some f =>
    let q := dropQuery f query
    let p := dropPath f path eon
    (q, p.1, if q = none ∧ p.1 = none then f else p.2)

/-- Python's `a or b or end` for places, `none` being None. -/
def orPos : List (Option Nat) → Nat → Nat
  | [], e => e
  | some (n + 1) :: _, _ => n + 1
  | _ :: l, e => orPos l e

/-- riparse.py:105-177 `split`. -/
def split (s : Str) : Ri :=
  let sp := splitScheme s
  let pos := sp.2
  let fin := s.length
  let path0 := find '/' s pos
  let eon0 := path0.getD fin
  let query0 := find '?' s pos
  let pq := withQuery query0 path0 eon0
  let fragment := find '#' s pos
  let r := withFragment fragment query0 pq.1 pq.2
  { scheme := sp.1
    netloc := if r.2.2 ≠ pos then some (slice s pos r.2.2) else none
    path := r.2.1.map fun p => slice s (p + 1) (orPos [r.1, fragment] fin)
    query := r.1.map fun q => slice s (q + 1) (orPos [fragment] fin)
    fragment := fragment.map fun f => slice s (f + 1) fin }

/-- riparse.py:199-217 `unsplit`. -/
def unsplit (t : Ri) : Str :=
  (match t.scheme with | some x => x ++ [':', '/', '/'] | none => []) ++
  (match t.netloc with | some x => x | none => []) ++
  (match t.path with | some x => '/' :: x | none => []) ++
  (match t.query with | some x => '?' :: x | none => []) ++
  (match t.fragment with | some x => '#' :: x | none => [])

/-- A split net location: user, password, host and port. -/
structure Netloc where
  user : Option Str
  password : Option Str
  host : Option Str
  port : Option Str
  deriving DecidableEq, Repr

/-- riparse.py:230-243: user and password, and where the host begins. -/
def netlocUser (fieldproc : Str → Str) (netloc : Str) : Option Str × Option Str × Nat :=
  match find '@' netloc 0 with
  | none => (none, none, 0)
  | some pos =>
    match splitMax ':' 1 (netloc.take pos) with
    | [u, p] => (some (fieldproc u), some (fieldproc p), pos + 1)
    | u :: _ => (some (fieldproc u), none, pos + 1)
    | [] => (none, none, pos + 1)

/-- riparse.py:247-271: host and port of a non-empty text from `pos` on. -/
def netlocHost (fieldproc : Str → Str) (netloc : Str) (pos : Nat) : Option Str × Option Str :=
  if netloc[pos]? = some '[' then
    let next := (find ']' netloc pos).getD (netloc.length - 1)
    (some (slice netloc pos (next + 1)), (find ':' netloc (next + 1)).map fun i => fieldproc (netloc.drop (i + 1)))
  else
    match find ':' netloc pos with
    | none => (some (fieldproc (netloc.drop pos)), none)
    | some i => (some (fieldproc (slice netloc pos i)), some (fieldproc (netloc.drop (i + 1))))

/-- riparse.py:219-273 `split_netloc`. -/
def splitNetloc (fieldproc : Str → Str) (netloc : Str) : Netloc :=
  let u := netlocUser fieldproc netloc
  if u.2.2 ≥ netloc.length then ⟨u.1, u.2.1, none, none⟩
  else
    let h := netlocHost fieldproc netloc u.2.2
    ⟨u.1, u.2.1, h.1, h.2⟩

/-- riparse.py:275-294 `unsplit_netloc`. -/
def unsplitNetloc (t : Netloc) : Option Str :=
  if t.user = none ∧ t.host = none then none
  else some (
    (match t.user with
      | some u => escapeUser u ++ (match t.password with | some p => ':' :: escapePassword p | none => []) ++ ['@']
      | none => []) ++
    (match t.host with
      | some h => escapeHost h ++ (match t.port with | some p => ':' :: escapePort p | none => [])
      | none => []))

/-- The dictionary of `structure`. -/
structure Dict where
  scheme : Option Str
  user : Option Str
  password : Option Str
  host : Option Str
  port : Option Str
  path : Option (List Str)
  query : Option (List (Str × Option Str))
  fragment : Option Str
  deriving DecidableEq, Repr

/-- riparse.py:325: one parameter of the query. -/
def queryItem (fieldproc : Str → Str) (x : Str) : Str × Option Str :=
  match splitMax '=' 1 x with
  | [] => ([], none)
  | [k] => (fieldproc k, none)
  | k :: v :: _ => (fieldproc k, some (fieldproc v))

/-- riparse.py:308-318: the net location of a split RI. -/
def structNetloc (fieldproc : Str → Str) : Option Str → Netloc
  | some x => splitNetloc fieldproc x
  | none => ⟨none, none, none, none⟩

/-- riparse.py:296-333 `structure`. -/
def structure_ (fieldproc : Str → Str) (t : Ri) : Dict :=
  let n := structNetloc fieldproc t.netloc
  { scheme := t.scheme
    user := n.user
    password := n.password
    host := n.host
    port := n.port
    path := t.path.map fun p => if p = [] then [] else (PyStr.split '/' p).map fieldproc
    query := t.query.map fun q => if q = [] then [] else (PyStr.split '&' q).map (queryItem fieldproc)
    fragment := t.fragment.map fieldproc }

/-- riparse.py:335-348 `construct_query`. -/
def constructQuery (x : List (Str × Option Str)) : Str :=
  join ['&'] (x.map fun kv => match kv.2 with
    | some v => escapeQueryKey kv.1 ++ ['='] ++ escapeQueryValue v
    | none => escapeQueryKey kv.1)

/-- riparse.py:350-381 `construct`. -/
def construct (x : Dict) : Ri :=
  { scheme := x.scheme
    netloc := unsplitNetloc ⟨x.user, x.password, x.host, x.port⟩
    path := x.path.map fun p => join ['/'] (p.map escapePath)
    query := x.query.map constructQuery
    fragment := x.fragment.map escapeAny }

/-- riparse.py:383-390 `parse`. -/
def parse (fieldproc : Str → Str) (s : Str) : Dict := structure_ fieldproc (split s)

/-- riparse.py:392-396 `serialize`. -/
def serialize (x : Dict) : Str := unsplit (construct x)

end PG.RiParse
