import Verif.Model.Statement
import Verif.Model.PyDict
/-!
# Model of preparing statements: `Statement._init`, `Statement._fini`, `Database.prepare`, `statement_from_id` and `query` in `postgresql/driver/pq3.py`

The type I/O of the connection is a parameter (its resolution is modelled in `Model/TypeIo`). Not modelled: warnings, the texts of errors.
-/
namespace PG.Prepare
open PG PG.Element3 PG.Xact3 PG.Fetch PG.Row PG.Statement

/-- What is used of `database.typio`: `_encode` of SQL texts, `_decode` of names, `encode`, `decode` (173-177), and `resolve` (229-325): a pair of routines, each of them possibly None, or None. -/
structure Typio (τ ν α β : Type) where
  encodeText : τ → Except Err Bytes
  decodeName : Bytes → Except Err ν
  encode : α → Except Err Bytes
  decode : Bytes → Except Err β
  resolve : Int → Except Err (Option (Option (α → Except Err Bytes) × Option (Bytes → Except Err β)))

/-- element3.py:65-66. -/
def stringFormat : Bytes := [0, 0]
/-- element3.py:66. -/
def binaryFormat : Bytes := [0, 1]

/-- What `_fini` sets. `keys` is `list(output.keys())`, decoded (`column_names`, 1427-1432); `attmap` is the dictionary. -/
structure Prepared (ν α β : Type) where
  id : Bytes
  input : List Int
  inputIo : List (α → Except Err Bytes)
  inputFormats : List Bytes
  output : Option (List ColDesc)
  keys : List ν
  attmap : List (ν × Nat)
  outputIo : Option (List (Bytes → Except Err β))
  outputFormats : List Bytes

/-- pq3.py:1487-1509 `_init`: the commands; `q` is the encoded SQL text, `none` if there is none (`statement_from_id`). -/
def prepareCommands (id : Bytes) (q : Option Bytes) : List Elem :=
  (match q with
    | some q => [.str .closeStatement id, .parse id q []]
    | none => []) ++ [.str .describeStatement id, .empty .synchronize]

/-- pq3.py:196-197 `attribute_map` and `dict(...)` of it: `i` is the next position. -/
def attmapFrom {ν : Type} [DecidableEq ν] (d : List (ν × Nat)) (i : Nat) : List ν → List (ν × Nat)
  | [] => d
  | n :: ns => attmapFrom (PyDict.set n i d) (i + 1) ns

/-- `(resolve(x) or (None, None))[1]`, pq3.py:224-226. -/
def unpackOf {τ ν α β : Type} (T : Typio τ ν α β) (c : ColDesc) : Except Err (Option (Bytes → Except Err β)) :=
  (T.resolve c.typId).map fun io => (io.getD (none, none)).2

/-- pq3.py:1553-1554: `(resolve(x) or (None, None))[0]`. -/
def packOf {τ ν α β : Type} (T : Typio τ ν α β) (x : Int) : Except Err (Option (α → Except Err Bytes)) :=
  (T.resolve x).map fun io => (io.getD (none, none)).1

/-- pq3.py:1542-1545. -/
def outputFormatOf {β : Type} (u : Option (Bytes → Except Err β)) : Bytes := if u.isNone then stringFormat else binaryFormat

/-- pq3.py:1556-1558: `x` is the number of the type, which is never None. -/
def inputFormatOf (_x : Int) : Bytes := binaryFormat

/-- pq3.py:1525: `(*head, argtypes, tupdesc, last) = ...`; `none` is the ValueError. -/
def unpackReceived (ms : List Proc) : Option (Proc × Proc) :=
  match ms.reverse with
  | _ :: tupdesc :: argtypes :: _ => some (argtypes, tupdesc)
  | _ => none

/-- pq3.py:1528-1548: the columns. What is not a descriptor cannot be iterated. -/
def finiOutput {τ ν α β : Type} (T : Typio τ ν α β) : Proc → Except Err (Option (List ColDesc) × List ν × List (Option (Bytes → Except Err β)))
  | .elem (.empty .noData) => .ok (none, [], [])
  | .elem (.tupleDescriptor cs) => do
    let keys ← cs.mapM fun c => T.decodeName c.name
    let us ← cs.mapM (unpackOf T)
    return (some cs, keys, us)
  | _ => .error .typeError

/-- pq3.py:1550-1562: the parameters. -/
def finiInput {τ ν α β : Type} (T : Typio τ ν α β) : Proc → Except Err (List Int × List (Option (α → Except Err Bytes)))
  | .elem (.attributeTypes ts) => do
    let ps ← ts.mapM (packOf T)
    return (ts, ps)
  | _ => .error .typeError

/-- pq3.py:1525-1562: what `_fini` makes of the messages. -/
def fini {τ ν α β : Type} [DecidableEq ν] (T : Typio τ ν α β) (id : Bytes) (ms : List Proc) : Except Err (Prepared ν α β) := do
  match unpackReceived ms with
  | none => .error .valueError
  | some (argtypes, tupdesc) =>
    let (out, keys, us) ← finiOutput T tupdesc
    let (ts, ps) ← finiInput T argtypes
    return {
      id := id
      input := ts
      inputIo := ps.map fun p => p.getD T.encode
      inputFormats := ts.map inputFormatOf
      output := out
      keys := keys
      attmap := attmapFrom [] 0 keys
      outputIo := out.map fun _ => us.map fun u => u.getD T.decode
      outputFormats := us.map outputFormatOf }

/-- How preparing ends. -/
inductive Prep (π : Type) where
  | prepared (p : π)
  | raised
  | blocked

/-- pq3.py:1511-1562 `_fini`, for the transaction with its commands sent. -/
def finiRun {τ ν α β : Type} [DecidableEq ν] (T : Typio τ ν α β) (id : Bytes) (i : Inst) (bs : List Batch) : Prep (Prepared ν α β) :=
  match steps (fun _ => false) i bs with
  | (_, _, .blocked) => .blocked
  | (_, _, .raised) => .raised
  | (i, _, .fine) =>
    if i.fatal ≠ none then .raised
    else match fini T id (messagesReceived i) with
      | .ok p => .prepared p
      | .error _ => .raised

/-- The encoded text, if there is one (1493-1494). -/
def encoded {τ ν α β : Type} (T : Typio τ ν α β) : Option τ → Except Err (Option Bytes)
  | none => .ok none
  | some t => (T.encodeText t).map some

/-- pq3.py:2333-2345 `prepare`, with a text; 2349-2353 `statement_from_id`, without: the commands that were sent, and the result. `id` is the encoded name. -/
def prepare {τ ν α β : Type} [DecidableEq ν] (T : Typio τ ν α β) (id : Bytes) (text : Option τ) (bs : List Batch) : List Elem × Prep (Prepared ν α β) :=
  match encoded T text with
  | .error _ => ([], .raised)
  | .ok q => match Xact3.init (prepareCommands id q) with
    | .error _ => ([], .raised)
    | .ok s0 => (prepareCommands id q, finiRun T id (sent s0) bs)

/-- pq3.py:1564-1594: calling what was prepared. -/
def callPrepared {ν α β : Type} (p : Prepared ν α β) (params : List (Option α)) (bs : List Batch) : List Elem × Called β :=
  call p.inputIo p.outputIo p.id p.inputFormats p.outputFormats params bs

/-- pq3.py:1641-1728. -/
def firstPrepared {ν α β : Type} (p : Prepared ν α β) (params : List (Option α)) (bs : List Batch) : List Elem × First β :=
  first p.inputIo (p.outputIo.getD []) p.id p.inputFormats p.outputFormats params bs

/-- pq3.py:1236-1237 `SingleExecution.__call__`, `db.query(text, ...)`: `bs` is the reply to the first commands, `bs'` that to the second. -/
def query {τ ν α β : Type} [DecidableEq ν] (T : Typio τ ν α β) (id : Bytes) (text : τ) (params : List (Option α)) (bs bs' : List Batch) : List Elem × Called β :=
  match prepare T id (some text) bs with
  | (cs, .raised) => (cs, .raised)
  | (cs, .blocked) => (cs, .blocked)
  | (cs, .prepared p) => match callPrepared p params bs' with
    | (cs', r) => (cs ++ cs', r)

/-- pq3.py:1251-1252 `SingleExecution.first`, `db.query.first(text, ...)`. -/
def queryFirst {τ ν α β : Type} [DecidableEq ν] (T : Typio τ ν α β) (id : Bytes) (text : τ) (params : List (Option α)) (bs bs' : List Batch) : List Elem × First β :=
  match prepare T id (some text) bs with
  | (cs, .raised) => (cs, .raised)
  | (cs, .blocked) => (cs, .blocked)
  | (cs, .prepared p) => match firstPrepared p params bs' with
    | (cs', r) => (cs ++ cs', r)

end PG.Prepare
