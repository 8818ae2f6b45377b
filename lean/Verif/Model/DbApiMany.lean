import Verif.Model.DbApiParams
import Verif.Model.LoadRows
import Verif.Model.Statement
/-!
# Model of `postgresql/driver/dbapi20.py`: `executemany`, `rowcount`, `description`, types and constructors

The server is a parameter, as in the model of `load_rows`: what a prepared statement does to the data. `prepare` is `none` if the server refuses the text.
Not modelled: texts of errors, results of queries (in the models of `Portal` and of the cursors), loss of the connection, COPY statements.
-/
namespace PG.DbApi
open PG

/-- A prepared statement: the number of its parameters, how they are packed (`none`: raises), what one execution does (`none`: the server raises). -/
structure Prepared (σ α π : Type) where
  arity : Nat
  pack : List α → Option π
  exec : σ → π → Option σ

/-- python/functools.py:46-52 `process_tuple`: TypeError unless there is one value for each parameter. -/
def Prepared.packRow {σ α π : Type} (ps : Prepared σ α π) (args : List α) : Option π :=
  if args.length ≠ ps.arity then none else ps.pack args

/-- One execution with these arguments. -/
def Prepared.run {σ α π : Type} (ps : Prepared σ α π) (s : σ) (args : List α) : Option σ :=
  match ps.packRow args with
  | none => none
  | some p => ps.exec s p

/-- dbapi20.py:259-290 `Cursor.execute`: what it does to the data; `none` if it raises. -/
def executeOn {σ α π : Type} (U : Unicode) (prepare : Str → Option (Prepared σ α π)) (statement : Str) (s : σ) (parameters : Params α) : Option σ :=
  match executeArgs U statement parameters with
  | .error _ => none
  | .ok (sql, args) =>
    match prepare sql with
    | none => none
    | some ps => ps.run s args

/-- dbapi20.py:300: `map(pxf, parameters)`: the rows made before one raises, and whether one raises. -/
def mapped {α : Type} (tr : Transformer) : List (Params α) → List (List α) × Bool
  | [] => ([], false)
  | p :: ps =>
    match transform tr p with
    | .error _ => ([], true)
    | .ok r => (r :: (mapped tr ps).1, (mapped tr ps).2)

/-- dbapi20.py:292-304 `Cursor.executemany` of an open cursor: whether it returns, and the connection after it. `fails`: iterating over `parameters` raises after these.
`ps._input` is never None for an open statement, so the rows are always mapped; 256 is the default of `load_rows`. -/
def executemany {σ α π : Type} (U : Unicode) (prepare : Str → Option (Prepared σ α π)) (db : LoadRows.Db σ π) (statement : Str) (parameters : List (Params α)) (fails : Bool) : Bool × LoadRows.Db σ π :=
  match convertQuery U statement with
  | .error _ => (false, db)
  | .ok (sql, tr, _) =>
    if db.aborted then (false, db)
    else
      match prepare sql with
      | none => (false, { db with aborted := db.block })
      | some ps =>
        LoadRows.loadRows ps.exec (fun s => ps.run s []) ps.packRow ps.arity db (mapped tr parameters).1 ((mapped tr parameters).2 || fails) 256

/-- dbapi20.py:63-79: what `dbapi_type` gives. -/
inductive ApiType where
  | str | bytes | int | datetime
  deriving DecidableEq, Repr

/-- dbapi20.py:49-53: the type objects. -/
def STRING : ApiType := .str
/-- dbapi20.py:50. -/
def BINARY : ApiType := .bytes
/-- dbapi20.py:51. -/
def NUMBER : ApiType := .int
/-- dbapi20.py:52. -/
def DATETIME : ApiType := .datetime
/-- dbapi20.py:53. -/
def ROWID : ApiType := .int

/-- dbapi20.py:62-79 `dbapi_type`; the numbers are those of types/__init__.py. -/
def dbapiType (typid : Nat) : Option ApiType :=
  if typid ∈ [25, 18, 1043, 19, 2275] then some STRING
  else if typid = 17 then some BINARY
  else if typid ∈ [20, 21, 23] then some NUMBER
  else if typid ∈ [1114, 1184] then some DATETIME
  else if typid = 26 then some ROWID
  else none

/-- dbapi20.py:277-281: an item of `description`; the five other fields are None. -/
structure Described where
  name : Str
  code : Option ApiType
  deriving DecidableEq, Repr

/-- A column of the result: its name as sent, the number of its type. -/
structure Column where
  name : Bytes
  typid : Nat
  deriving DecidableEq, Repr

/-- The attributes of a cursor. -/
structure Attrs where
  rowcount : Int
  description : Option (List Described)
  deriving DecidableEq, Repr

/-- dbapi20.py:273-289: the attributes after `execute`; `columns` is None if the statement gives no rows, `tag` the tag of its completion. -/
def attrsAfter (decode : Bytes → Str) (columns : Option (List Column)) (tag : Bytes) : Attrs :=
  match columns with
  | some (c :: cs) => ⟨-1, some ((c :: cs).map fun x => ⟨decode x.name, dbapiType x.typid⟩)⟩
  | _ =>
    match PG.Statement.extractCount tag with
    | some n => ⟨n, none⟩
    | none => ⟨-1, none⟩

/-- dbapi20.py:303: the attributes after `executemany`: the description stays. -/
def attrsMany (a : Attrs) : Attrs := { a with rowcount := -1 }

/-- `time.struct_time`. -/
structure Tm where
  year : Nat
  mon : Nat
  mday : Nat
  hour : Nat
  min : Nat
  sec : Nat
  wday : Nat
  yday : Nat
  isdst : Int
  deriving DecidableEq, Repr

/-- Its first seven items. -/
def Tm.seven (t : Tm) : List Nat := [t.year, t.mon, t.mday, t.hour, t.min, t.sec, t.wday]

/-- `datetime.datetime(*args)` with the constructor's positional arguments; no check of the values. -/
structure Stamp where
  year : Nat
  mon : Nat
  mday : Nat
  hour : Nat := 0
  min : Nat := 0
  sec : Nat := 0
  microsecond : Nat := 0
  deriving DecidableEq, Repr

/-- `datetime.datetime(*l)`. -/
def stampOf : List Nat → Option Stamp
  | [y, mo, d] => some ⟨y, mo, d, 0, 0, 0, 0⟩
  | [y, mo, d, h] => some ⟨y, mo, d, h, 0, 0, 0⟩
  | [y, mo, d, h, mi] => some ⟨y, mo, d, h, mi, 0, 0⟩
  | [y, mo, d, h, mi, s] => some ⟨y, mo, d, h, mi, s, 0⟩
  | [y, mo, d, h, mi, s, us] => some ⟨y, mo, d, h, mi, s, us⟩
  | _ => none

/-- dbapi20.py:59 `DateFromTicks`: what `datetime.date` is called with; `localtime` is a parameter. -/
def dateFromTicks (localtime : Int → Tm) (x : Int) : List Nat := (localtime x).seven.take 3

/-- dbapi20.py:60 `TimeFromTicks`: what `datetime.time` is called with. -/
def timeFromTicks (localtime : Int → Tm) (x : Int) : List Nat := ((localtime x).seven.take 6).drop 3

/-- dbapi20.py:61 `TimestampFromTicks`. -/
def timestampFromTicks (localtime : Int → Tm) (x : Int) : Option Stamp := stampOf ((localtime x).seven.take 7)

end PG.DbApi
