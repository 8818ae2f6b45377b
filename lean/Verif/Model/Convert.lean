import Verif.Model.Messages
import Verif.Model.Procedure
import Verif.Model.TypesLib
/-!
# Errors of conversion: how packing a parameter or unpacking a column fails (postgresql/driver/pq3.py)

`process_tuple` with the handlers that make an exception of the cause: of records (`record_io_factory`, `anon_record_io_factory`), of parameters, of columns.  Routines of types that are not arrays or
records, `repr`, and Python's own conversions of values (`tuple(x)`, `Array(x)`) are parameters; they raise an `Err`.  Not modelled: exceptions that are not an `Exception`; `RecursionError`.
-/
namespace PG.Convert
open PG PG.Exceptions PG.Messages PG.TypesLib

/-- Who is named as the origin: the statement, the cursor, the connection. -/
inductive Creator where | statement | output | database
  deriving DecidableEq, Repr

/-- What is raised: an exception of Python or of a routine; or one of the client, `from` its cause. -/
inductive Exn where
  | py (e : Err)
  | client (o : Obj) (creator : Creator) (cause : Exn)
  deriving DecidableEq

/-- pq3.py:501-516 `raise_client_error`; the fields are strings. -/
def raiseClientError (fields : List (Bytes × Str)) (creator : Creator) (cause : Exn) : Exn :=
  match pop .code (named fields) with
  | .error e => .py e
  | .ok (c, m) => match pop .message m with
    | .error e => .py e
    | .ok (ms, m) => .client { cls := some (errorLookup c), message := ms, code := instanceCode (errorLookup c) c, details := m, fromServer := false } creator cause

/-- `repr(tup[itemnum])`, not to fill the screen (pq3.py:427-430, 440-443, 477-480, 785-788, 1370-1373, 1397-1400). -/
def short (data : Str) : Str := if data.length > 80 then data.take 75 ++ " ...".toList else data

/-- `str(n)`, `'%r' % n`. -/
def decimal (n : Nat) : Str := Nat.toDigits 10 n

/-- `repr(x)` of bytes. -/
def reprBytes (v : Bytes) : Str :=
  let q := if 39 ∈ v ∧ 34 ∉ v then '"' else '\''
  ['b', q] ++ reprInner v ++ [q]

/-- The fields of a record: the names of its attributes, of their types (`None` if unknown), of the composite. -/
structure Names where
  atts : List Str
  typs : List (Option Str)
  composite : Str

/-- pq3.py:415, 426-437, 439-450: `fmt_errmsg` and the handlers of `record_io_factory`. -/
def compositeError (verb : Str) (n : Names) (i : Nat) (data : Str) (cause : Exn) : Exn :=
  raiseClientError [([67], "--cIO".toList), ([83], "ERROR".toList),
    ([77], "failed to ".toList ++ verb ++ " attribute ".toList ++ decimal i ++ ", ".toList ++ n.atts.getD i [] ++ "::".toList ++ Procedure.percentS (n.typs.getD i none) ++
      ", of composite ".toList ++ n.composite ++ " from wire data".toList),
    ([87], short data), ([80], decimal i)] .database cause

/-- pq3.py:476-487. -/
def anonymousError (i : Nat) (data : Str) (cause : Exn) : Exn :=
  raiseClientError [([67], "--cIO".toList), ([83], "ERROR".toList), ([77], "Could not unpack element ".toList ++ decimal i ++ " from anonymous record".toList),
    ([87], short data), ([80], decimal i)] .database cause

/-- pq3.py:1363-1386 `Statement._raise_parameter_tuple_error`; `typ` is `sql_type_from_oid(...)`. -/
def parameterError (typ : Option Str) (i : Nat) (data : Str) (cause : Exn) : Exn :=
  raiseClientError [([83], "ERROR".toList), ([67], "--PIO".toList),
    ([77], "could not pack parameter ".toList ++ '$' :: decimal (i + 1) ++ "::".toList ++ typ.getD "<unknown>".toList ++ " for transfer".toList),
    ([68], short data), ([72], "Try casting the parameter to 'text', then to the target type.".toList), ([80], decimal i)] .statement cause

/-- pq3.py:1390-1413 `Statement._raise_column_tuple_error`, used by `first`; 782-805 `Output._raise_column_tuple_error`, used by the others, with other words. -/
def columnError (c : Creator) (name : Str) (typ : Option Str) (i : Nat) (data : Str) (cause : Exn) : Exn :=
  raiseClientError [([83], "ERROR".toList), ([67], "--CIO".toList),
    ([77], (if c = .output then "failed to".toList else "could not".toList) ++ " unpack column ".toList ++ decimal i ++ ", ".toList ++ name ++ "::".toList ++ typ.getD "<unknown>".toList ++ ", from wire data".toList),
    ([68], short data), ([72], "Try casting the column to 'text'.".toList), ([80], decimal i)] c cause

/-! ## Conversions -/

/-- How a value is converted.  `base`: by a routine.  `each`: an array: its elements, and what makes the result of the converted ones.  `record`: the same, with a conversion for each item;
`names` is `none` for anonymous records, whose items bring their types along. -/
inductive Conv (A B : Type) where
  | base (f : A → Except Err B)
  | each (split : A → Except Err (List (Option A) × (List (Option B) → Except Err B))) (elem : Conv A B)
  | record (names : Names) (split : A → Except Err (List (Option A) × (List (Option B) → Except Err B))) (fields : List (Conv A B))

/-- python/functools.py:53-63: the loop of `process_tuple`, from item `i`; if a routine raises: the exception and the item's number. -/
def items {A B : Type} : List (A → Except Exn B) → List (Option A) → Nat → Except (Exn × Nat) (List (Option B))
  | f :: fs, some x :: xs, i => match f x with
    | .error e => .error (e, i)
    | .ok y => match items fs xs (i + 1) with
      | .error e => .error e
      | .ok ys => .ok (some y :: ys)
  | _ :: fs, none :: xs, i => match items fs xs (i + 1) with
    | .error e => .error e
    | .ok ys => .ok (none :: ys)
  | _, _, _ => .ok []

/-- python/functools.py:37-66 `process_tuple`, with the handler, which raises. -/
def processTuple {A B : Type} (handler : Nat → Str → Exn → Exn) (repr : A → Str) (procs : List (A → Except Exn B)) (tup : List (Option A)) : Except Exn (List (Option B)) :=
  if tup.length ≠ procs.length then .error (.py .typeError)
  else match items procs tup 0 with
    | .error (e, i) => .error (handler i (match (tup[i]?).join with | some x => repr x | none => "None".toList) e)
    | .ok ys => .ok ys

/-- The elements of an array, in order: `(x if x is None else f(x) for x in elements)` (pq3.py:380, 390). -/
def eachItem {A B : Type} (f : A → Except Exn B) : List (Option A) → Except Exn (List (Option B))
  | [] => .ok []
  | none :: xs => match eachItem f xs with
    | .error e => .error e
    | .ok ys => .ok (none :: ys)
  | some x :: xs => match f x with
    | .error e => .error e
    | .ok y => match eachItem f xs with
      | .error e => .error e
      | .ok ys => .ok (some y :: ys)

/-- An exception of Python. -/
def lift {B : Type} : Except Err B → Except Exn B
  | .ok y => .ok y
  | .error e => .error (.py e)

mutual
/-- A conversion: of an array pq3.py:375-399, of a record 452-473; `verb` is `pack` or `unpack`. -/
def run {A B : Type} (verb : Str) (repr : A → Str) : Conv A B → A → Except Exn B
  | .base f, a => lift (f a)
  | .each split el, a => match split a with
    | .error e => .error (.py e)
    | .ok (xs, join) => match eachItem (run verb repr el) xs with
      | .error e => .error e
      | .ok ys => lift (join ys)
  | .record names split fields, a => match split a with
    | .error e => .error (.py e)
    | .ok (xs, join) => match processTuple (compositeError verb names) repr (runs verb repr fields) xs with
      | .error e => .error e
      | .ok ys => lift (join ys)
/-- The routines of the fields (pq3.py:422-423). -/
def runs {A B : Type} (verb : Str) (repr : A → Str) : List (Conv A B) → List (A → Except Exn B)
  | [] => []
  | c :: cs => run verb repr c :: runs verb repr cs
end

/-! ## Types -/

/-- Python's values: `repr`; `typio.encode`, `typio.decode`; the values of a record's attributes (`data.get(k)` of a `dict`, else `tuple(data)`, 466-472); `array_parts` (349-357): elements,
dimensions, lower bounds; `array_from_parts` (359-365); a row. -/
structure World (V : Type) where
  repr : V → Str
  encode : V → Except Err Bytes
  decode : Bytes → Except Err V
  attrs : List Str → V → Except Err (List (Option V))
  parts : V → Except Err (List (Option V) × List Int × List Int)
  fromParts : List (Option V) → List Int → List Int → Except Err V
  row : List Str → List (Option V) → V

/-- A type: the routines of `types.io`, either may be None; arrays (element type's number, whether there is a binary form for input and output), records (the types' numbers, the types). -/
inductive Ty (V : Type) where
  | base (pack : Option (V → Except Err Bytes)) (unpack : Option (Bytes → Except Err V))
  | array (typoid : Nat) (elem : Ty V) (hasIn hasOut : Bool)
  | record (names : Names) (typids : List Int) (fields : List (Ty V))

mutual
/-- The packing routine: pq3.py:370-386, 422, 461-473; `or self.encode` (282, 307, 1555).  The header of an array is packed after its elements here; that matters only if both raise. -/
def packer {V : Type} (W : World V) : Ty V → Conv V Bytes
  | .base p _ => .base (p.getD W.encode)
  | .array t el hasIn _ =>
    if hasIn then .each (fun v => match W.parts v with
        | .error e => .error e
        | .ok (es, dims, lbs) => .ok (es, fun bs => arrayPack ⟨0, t, dims, lbs, bs⟩)) (packer W el)
    else .base W.encode
  | .record n typids fields => .record n (fun v => match W.attrs n.atts v with
      | .error e => .error e
      | .ok xs => .ok (xs, fun bs => recordPack (typids.zip bs))) (packers W fields)
/-- The packers of the attributes, in order (pq3.py:404-407). -/
def packers {V : Type} (W : World V) : List (Ty V) → List (Conv V Bytes)
  | [] => []
  | t :: ts => packer W t :: packers W ts
end

/-- `array_unpack`, with its elements; it may not end (see C20). -/
def arrayParts (d : Bytes) : Except Err RawArray :=
  match arrayUnpack (d.length + 1) d with
  | none => .error .nonTermination
  | some r => r

mutual
/-- The unpacking routine: pq3.py:388-397, 423, 452-458; `or self.decode`. -/
def unpacker {V : Type} (W : World V) : Ty V → Conv Bytes V
  | .base _ u => .base (u.getD W.decode)
  | .array _ el _ hasOut =>
    if hasOut then .each (fun d => match arrayParts d with
        | .error e => .error e
        | .ok a => .ok (a.elements, fun vs => W.fromParts vs a.dims a.lbs)) (unpacker W el)
    else .base W.decode
  | .record n _ fields => .record n (fun d => match recordUnpack d with
      | .error e => .error e
      | .ok l => .ok (l.map Prod.snd, fun vs => .ok (W.row n.atts vs))) (unpackers W fields)
/-- The unpackers of the attributes, in order (pq3.py:404-407). -/
def unpackers {V : Type} (W : World V) : List (Ty V) → List (Conv Bytes V)
  | [] => []
  | t :: ts => unpacker W t :: unpackers W ts
end

/-- pq3.py:434. -/
def PACK : Str := "pack".toList
/-- pq3.py:447. -/
def UNPACK : Str := "unpack".toList

/-- pq3.py:489-497 `_unpack_record`: an anonymous record; `resolve` gives the types its items bring along. -/
def unpackAnonymous {V : Type} (W : World V) (resolve : Int → Ty V) (d : Bytes) : Except Exn (List (Option V)) :=
  match recordUnpack d with
  | .error e => .error (.py e)
  | .ok l => processTuple anonymousError reprBytes (runs UNPACK reprBytes (unpackers W (l.map fun x => resolve x.1))) (l.map Prod.snd)

/-! ## Statements -/

/-- What is known of a statement: its parameters' types with their SQL names, its columns' names and types with theirs. -/
structure Stmt (V : Type) where
  params : List (Ty V × Option Str)
  columns : List (Str × Ty V × Option Str)

/-- pq3.py:1353-1357 `_pq_parameters`. -/
def parameters {V : Type} (W : World V) (s : Stmt V) (ps : List (Option V)) : Except Exn (List (Option Bytes)) :=
  processTuple (fun i => parameterError (s.params.map Prod.snd |>.getD i none) i) W.repr (runs PACK W.repr (packers W (s.params.map Prod.fst))) ps

/-- pq3.py:1687-1699 (`first`, several columns), 768-780 (`rows`, `chunks`, calls): a row; `c` is who converts. -/
def row {V : Type} (W : World V) (s : Stmt V) (c : Creator) (data : List (Option Bytes)) : Except Exn (List (Option V)) :=
  processTuple (fun i => columnError c (s.columns.map Prod.fst |>.getD i []) (s.columns.map (·.2.2) |>.getD i none) i) reprBytes
    (runs UNPACK reprBytes (unpackers W (s.columns.map (·.2.1)))) data

/-- python/functools.py:68-69 `process_chunk`: rows one after the other. -/
def rows {V : Type} (W : World V) (s : Stmt V) (c : Creator) : List (List (Option Bytes)) → Except Exn (List (List (Option V)))
  | [] => .ok []
  | d :: ds => match row W s c d with
    | .error e => .error e
    | .ok r => match rows W s c ds with
      | .error e => .error e
      | .ok rs => .ok (r :: rs)

/-- pq3.py:1564-1594, 1641-1676, 868-884: a statement is called or executed with parameters: if they can not be packed that is raised, and nothing is sent; else the Bind message has them. -/
def bound {V : Type} (W : World V) (s : Stmt V) (ps : List (Option V)) : Except Exn (List (Option Bytes)) :=
  if ps.length ≠ s.params.length then .error (.py .typeError) else parameters W s ps

/-- pq3.py:782-805 for a cursor made of a name (`cursor_from_id`, 2359-2362): it has no statement, so that the handler raises AttributeError (800). -/
def cursorRow {V : Type} (W : World V) (s : Stmt V) (data : List (Option Bytes)) : Except Exn (List (Option V)) :=
  processTuple (fun _ _ _ => .py .attributeError) reprBytes (runs UNPACK reprBytes (unpackers W (s.columns.map (·.2.1)))) data

/-- pq3.py:1690-1706: the first row as `first` returns it; of one column its value, for which no handler is used. -/
def firstRow {V : Type} (W : World V) (s : Stmt V) (data : List (Option Bytes)) : Except Exn (List (Option V)) :=
  if s.columns.length > 1 then row W s .statement data
  else match data, s.columns with
    | none :: _, _ => .ok [none]
    | some d :: _, c :: _ => match run UNPACK reprBytes (unpacker W c.2.1) d with
      | .error e => .error e
      | .ok v => .ok [some v]
    | _, _ => .error (.py .indexError)

end PG.Convert
