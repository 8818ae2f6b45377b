import Verif.Model.Procedure
/-!
# What a statement says about its columns: `column_types`, `sql_column_types`, `pg_column_types` (postgresql/driver/pq3.py)

Classes of Python are names.  The routines are those of `PG.TypeIo`; here is the third item of their triples, and the classes of what they return.
-/
namespace PG.Describe
open PG PG.TypeIo PG.Procedure

/-- Classes. -/
inductive Cls where
  | bool | bytes | int | float | str | decimal | date | datetime | time | timedelta | bit | varbit | point | box | lseg | circle | array | tuple | row | elementTree | element
  | ipAddress | ipNetwork | uuid | dict
  deriving DecidableEq, Repr

/-- `issubclass`, for these: types/__init__.py:489 (`Row`), types/bitwise.py:87 (`Bit`). -/
def Cls.sub (a b : Cls) : Bool := a = b || (a = .row && b = .tuple) || (a = .bit && b = .varbit) || (a = .bool && b = .int) || (a = .datetime && b = .date)

/-- The third item of a triple in a module of `types.io`; `none`: it is a pair. builtins.py:20-33, pg_bitwise.py:11-14, pg_network.py:27-31, pg_system.py:4-8, pg_geometry.py:35-39, stdlib_datetime.py:215-279, 297-304, stdlib_decimal.py:163-165, stdlib_uuid.py:12-14, stdlib_xml_etree.py:37-43, 76-79, stdlib_jsonb.py:15-19.  What was given to `identify` as an hstore (contrib_hstore.py:44) is a pair, too. -/
def moduleClass : List (Nat × Cls) :=
  [(16, .bool), (17, .bytes), (18, .bytes), (21, .int), (23, .int), (20, .int), (702, .int), (700, .float), (701, .float),
   (1560, .bit), (1562, .varbit), (829, .str), (869, .str), (650, .str), (600, .point), (601, .lseg), (603, .box), (718, .circle),
   (1082, .date), (1083, .time), (1266, .time), (1114, .datetime), (1184, .datetime), (1186, .timedelta), (1700, .decimal), (142, .elementTree), (3802, .str)]

/-- The third item: `strio` (122), `array_io_factory` (401), `record_io_factory` (472), `anon_record_io_factory` (499). -/
def third : Io → Option Cls
  | .str _ => some .str
  | .builtin t => lookup moduleClass t
  | .array .. => some .array
  | .record .. => some .tuple
  | .anonymous _ => none

/-- The exceptions of these properties (pq3.py:213-216, 832-837). -/
inductive Exn where
  | unboundLocal
  | index
  | type
  deriving DecidableEq, Repr

/-- pq3.py:213-216 `type_from_oid`. -/
def typeFromOid (c : Cache) (t : Nat) : Except Exn Cls :=
  match c.get t with
  | none => .error .unboundLocal
  | some io => match third io with
    | none => .error .index
    | some x => .ok x

/-- A list comprehension. -/
def eachType (c : Cache) : List Nat → Except Exn (List Cls)
  | [] => .ok []
  | t :: ts => match typeFromOid c t with
    | .error e => .error e
    | .ok x => match eachType c ts with
      | .error e => .error e
      | .ok xs => .ok (x :: xs)

/-- pq3.py:1441-1447 (and 821-824) `column_types`; `output` has the types of the columns, `none` if there are no columns. -/
def columnTypes (c : Cache) (output : Option (List Nat)) : Except Exn (Option (List Cls)) :=
  match output with
  | none => .ok none
  | some ts => match eachType c ts with
    | .error e => .error e
    | .ok xs => .ok (some xs)

/-- pq3.py:1433-1438 `parameter_types`; there is always a list. -/
def parameterTypes (c : Cache) (input : List Nat) : Except Exn (List Cls) := eachType c input

/-- pq3.py:1462-1470 `sql_column_types` of a statement. -/
def sqlColumnTypes (k : Known) (output : Option (List Nat)) : Option (List (Option Str)) := output.map (·.map (sqlType k))

/-- pq3.py:832-837 `sql_column_types` of a cursor or of chunks: `pg_column_types` is not tested. -/
def sqlColumnTypesOutput (k : Known) (output : Option (List Nat)) : Except Exn (List (Option Str)) :=
  match output with
  | none => .error .type
  | some ts => .ok (ts.map (sqlType k))

/-- The classes of what the modules' unpacking returns: the same modules, pg_network.py:19-25, pg_system.py (`oid_unpack`, ..., lib.py), pg_bitwise.py:8-9 with types/bitwise.py:4-12, stdlib_uuid.py:9-10, stdlib_xml_etree.py:15-20. -/
def moduleGives : List (Nat × List Cls) :=
  [(16, [.bool]), (17, [.bytes]), (18, [.bytes]), (21, [.int]), (23, [.int]), (20, [.int]), (702, [.int]), (700, [.float]), (701, [.float]),
   (1560, [.bit, .varbit]), (1562, [.bit, .varbit]), (829, [.str]), (869, [.ipAddress]), (650, [.ipNetwork]), (26, [.int]), (28, [.int]), (29, [.int]), (27, [.tuple]),
   (600, [.point]), (601, [.lseg]), (603, [.box]), (718, [.circle]),
   (1082, [.date]), (1083, [.time]), (1266, [.time]), (1114, [.datetime]), (1184, [.datetime]), (1186, [.timedelta]), (1700, [.decimal]), (142, [.element, .tuple]), (3802, [.str]), (2950, [.uuid])]

/-- What a column's routine returns: `decode` without one. -/
def gives : Io → List Cls
  | .str _ => [.str]
  | .builtin t => (lookup moduleGives t).getD [.dict]
  | .array _ _ _ o => if o then [.array] else [.str]
  | .record .. => [.row]
  | .anonymous _ => [.tuple]

end PG.Describe
