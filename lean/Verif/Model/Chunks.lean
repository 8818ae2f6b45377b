import Verif.Model.Statement
import Verif.Model.SqlText
/-!
# Model of `Statement.chunks`, `rows` and `column` in `postgresql/driver/pq3.py`: how the result is asked for, and what is made of it

The server is a parameter: a function of its state and of the commands of one exchange (up to the Sync). An exchange is complete when its reply is used (pq3.py:1014-1015), as in `Model/Fetch`, which has the steps in between and what
other streams do to them. Simplified: all that a `FetchAll` (858-968) receives is one chunk here (`Model/Fetch` has the batches); an error of the server found by its constructor is raised there, and here by the first use.
Not modelled: `closed is None` (an interrupted preparation, 1603-1604, 1617-1618), the texts of errors.
-/
namespace PG.Chunks
open PG PG.Element3 PG.Row PG.SqlText PG.Statement

/-- A prepared statement: its identifier on the server, `string` (None for `statement_from_id`, 2349-2353), `_input_io`, `_input_formats`, `_output_formats`, and `_output_io`, `none` when `_output` is None (1528-1562). -/
structure Stmt (α β : Type) where
  id : Bytes
  string : Option Str
  inputIo : List (α → Except Err Bytes)
  inFormats : List Bytes
  outFormats : List Bytes
  outputIo : Option (List (Bytes → Except Err β))

/-- The classes: `SingleXactCopy` (970-972), `MultiXactOutsideBlock` (1049-1063), `SingleXactFetch` (974-975), `MultiXactInsideBlock` (1038-1044). -/
inductive Plan where
  | copy
  | hold
  | whole
  | block
  deriving DecidableEq, Repr

/-- pq3.py:1616-1633: which one `chunks` makes; `idle` is `pq.state == b'I'`. -/
def plan {α β : Type} (s : Stmt α β) (idle : Bool) : Plan :=
  if s.outputIo.isNone then .copy
  else if idle then (if s.string.isSome then .hold else .whole)
  else .block

/-- The methods. -/
inductive Method where
  | chunks
  | rows
  | column
  deriving DecidableEq, Repr

/-- `_process_chunk`: `_process_copy_chunk`, `_process_tuple_chunk`, `_process_tuple_chunk_Row`, `_process_tuple_chunk_Column`, or no such attribute. -/
inductive Processing where
  | lines
  | tuples
  | rows
  | column
  | missing
  deriving DecidableEq, Repr

/-- pq3.py:972, 980 (and 974-975, where there is none): the class's own. -/
def default : Plan → Processing
  | .copy => .lines
  | .hold => .tuples
  | .block => .tuples
  | .whole => .missing

/-- `if chunks._output_io`, pq3.py:1605: neither None nor without columns. -/
def hasColumns {α β : Type} (s : Stmt α β) : Bool :=
  match s.outputIo with
  | some (_ :: _) => true
  | _ => false

/-- pq3.py:1603-1608 `rows`, 1636-1639 `column`. -/
def processing {α β : Type} (s : Stmt α β) (m : Method) (p : Plan) : Processing :=
  match m with
  | .chunks => default p
  | .rows => if hasColumns s then .rows else default p
  | .column => .column

/-- What a chunk is made of. -/
inductive Item (β : Type) where
  | line (d : Bytes)
  | tuple (l : List (Option β))
  | row (l : List (Option β))
  | value (v : β)
  deriving DecidableEq, Repr

/-- What the server answers to a command. -/
inductive Reply where
  | noise
  | copyBegin
  | tuple (t : List (Option Bytes))
  | line (d : Bytes)
  | complete
  | suspended
  | failed
  deriving DecidableEq, Repr

/-- What is data. -/
inductive Datum where
  | tuple (t : List (Option Bytes))
  | line (d : Bytes)
  deriving DecidableEq, Repr

/-- pq3.py:1018-1020 (tuples), 949-952 (tuples and bytes). -/
def dataOf (p : Plan) : Reply → Option Datum
  | .tuple t => some (.tuple t)
  | .line d => if p = .copy ∨ p = .whole then some (.line d) else none
  | _ => none

/-- functools.py:52-66: TypeError for a wrong number of items; otherwise the handler raises the client's error. -/
def rowError : PErr → Err
  | .mismatch => .typeError
  | _ => .runtimeError

/-- pq3.py:769-780, and functools.py `process_chunk`, `process_tuple`: bytes where a tuple is expected: each byte is taken for a column; here the error. -/
def decodeTuple {β : Type} (io : List (Bytes → Except Err β)) : Datum → Except Err (List (Option β))
  | .tuple t => (processTuple io t).mapError rowError
  | .line _ => .error .runtimeError

/-- pq3.py:751-766, one row: `unpack(y[0])`; whatever is raised becomes the TypeError of `next(r)`, except for `y[0]` of a row without columns (the list `l`, outside of the `try`). -/
def decodeValue {β : Type} (f : Bytes → Except Err β) : Datum → Except Err β
  | .tuple (some d :: _) => (f d).mapError fun _ => .typeError
  | .tuple (none :: _) => .error .typeError
  | .tuple [] => .error .indexError
  | .line _ => .error .typeError

/-- pq3.py:742-780: `_process_chunk(chunk)`; `io` is `_output_io`. `None[0]` is a TypeError, `()[0]` an IndexError. A copy chunk keeps the lines. `io` is not None where tuples are made (`plan`). -/
def process {β : Type} (io : Option (List (Bytes → Except Err β))) : Processing → List Datum → Except Err (List (Item β))
  | .lines, l => .ok (l.filterMap fun | .line d => some (.line d) | .tuple _ => none)
  | .tuples, l => (l.mapM (decodeTuple (io.getD []))).map (·.map .tuple)
  | .rows, l => (l.mapM (decodeTuple (io.getD []))).map (·.map .row)
  | .column, l =>
    match io with
    | none => .error .typeError
    | some [] => .error .indexError
    | some (f :: _) => (l.mapM (decodeValue f)).map (·.map .value)
  | .missing, _ => .error .attributeError

/-- pq3.py:977, `chunksize`. -/
def chunksize : Nat := 4096

/-- pq3.py:713-729 `_pq_xp_fetch(True, chunksize)`, 1062-1063. -/
def fetchCommands (enc : Str → Except Err Bytes) (cid : Str) (outFormats : List Bytes) : Except Err (List Elem) := do
  let q ← enc (fetchText cid true (some chunksize))
  return [.parse [] q [], .bind [] [] [] [] outFormats, .execute [] 0xFFFFFFFF, .empty .synchronize]

/-- pq3.py:694-708 `_pq_xp_declare`. -/
def declareCommands (enc : Str → Except Err Bytes) (cid string : Str) (inFormats : List Bytes) (params : Except Err (List (Option Bytes))) : Except Err (List Elem) := do
  let q ← enc (declareCursor cid string)
  let params ← params
  return [.parse [] q [], .bind [] [] inFormats params [], .execute [] 1]

/-- pq3.py:1038-1044. -/
def executeCommands (cid : Bytes) : List Elem := [.execute cid chunksize, .empty .synchronize]

/-- pq3.py:1353-1357 `_pq_parameters`: the handler raises the client's error. -/
def parameters {α β : Type} (s : Stmt α β) (params : List (Option α)) : Except Err (List (Option Bytes)) :=
  (processTuple s.inputIo params).mapError rowError

/-- The commands of the first exchange, and those of the further ones. -/
structure Commands where
  first : List Elem
  again : List Elem
  deriving DecidableEq, Repr

/-- pq3.py:636-656, 868-883 (`FetchAll`), 986-1007 (`MultiXactStream`): what the constructors send; `cid` is the identifier of the new cursor. For `hold`, `string` is not None. -/
def commands {α β : Type} (enc : Str → Except Err Bytes) (cid : Str) (s : Stmt α β) (params : List (Option α)) : Plan → Except Err Commands
  | .hold => do
    let _ ← enc cid
    let f ← fetchCommands enc cid s.outFormats
    let d ← declareCommands enc cid (s.string.getD []) s.inFormats (parameters s params)
    return ⟨d ++ f, f⟩
  | .block => do
    let c ← enc cid
    return ⟨.bind c s.id s.inFormats (← parameters s params) s.outFormats :: executeCommands c, executeCommands c⟩
  | _ => do
    return ⟨callCommands s.id s.inFormats (← parameters s params) s.outFormats, []⟩

/-- The server: its reply to the commands of an exchange, and its new state. -/
abbrev Serve (σ : Type) := σ → List Elem → List Reply × σ

/-- The stream: the plan, `_process_chunk`, `_command`, and the reply of `_xact`. -/
structure Stream where
  plan : Plan
  processing : Processing
  again : List Elem
  pending : Option (List Reply)
  deriving DecidableEq, Repr

/-- pq3.py:1602-1639 `chunks`, `rows`, `column`: an exception before anything is sent, or the stream, with its first exchange. -/
def run {α β σ : Type} (enc : Str → Except Err Bytes) (serve : Serve σ) (cid : Str) (s : Stmt α β) (m : Method) (params : List (Option α)) (idle : Bool) (srv : σ) : Except Err (Stream × σ) :=
  if params.length ≠ s.inputIo.length then .error .typeError
  else match commands enc cid s params (plan s idle) with
    | .error e => .error e
    | .ok c => .ok (⟨plan s idle, processing s m (plan s idle), c.again, some (serve srv c.first).1⟩, (serve srv c.first).2)

/-- What `next()` does. -/
inductive Next (β : Type) where
  | chunk (l : List (Item β))
  | stop
  | raised (e : Err)
  deriving DecidableEq, Repr

/-- The exception or the chunk. -/
def Next.of {β : Type} : Except Err (List (Item β)) → Next β
  | .ok l => .chunk l
  | .error e => .raised e

/-- pq3.py:1009-1033 (and 924-968, for the two that get everything at once): `__next__`. A `FetchAll` without data has no transaction to wait for (900-911), unless a COPY has begun. The error of the server is raised by `_pq_complete` (2613-2622); the error that is raised for a failure is `runtimeError` here. -/
def next {β σ : Type} (io : Option (List (Bytes → Except Err β))) (serve : Serve σ) (x : Stream) (srv : σ) : Next β × Stream × σ :=
  match x.pending with
  | none => (.stop, x, srv)
  | some r =>
    if .failed ∈ r then (.raised .runtimeError, x, srv)
    else if x.plan = .hold ∨ x.plan = .block then
      if (r.filterMap (dataOf x.plan)).length = chunksize then
        (.of (process io x.processing (r.filterMap (dataOf x.plan))), { x with pending := some (serve srv x.again).1 }, (serve srv x.again).2)
      else if r.filterMap (dataOf x.plan) = [] then (.stop, { x with pending := none }, srv)
      else (.of (process io x.processing (r.filterMap (dataOf x.plan))), { x with pending := none }, srv)
    else if r.filterMap (dataOf x.plan) = [] ∧ .copyBegin ∉ r then (.stop, { x with pending := none }, srv)
    else match process io x.processing (r.filterMap (dataOf x.plan)) with
      | .ok l => (.chunk l, { x with pending := none }, srv)
      | .error e => (.raised e, x, srv)

/-- How iterating ends. -/
inductive End where
  | stop
  | raised (e : Err)
  /-- more turns would be needed -/
  | more
  deriving DecidableEq, Repr

/-- `for chunk in stream`: before each turn other things may happen on the server. -/
def drain {β σ : Type} (io : Option (List (Bytes → Except Err β))) (serve : Serve σ) : List (σ → σ) → Stream → σ → List (List (Item β)) × End
  | [], _, _ => ([], .more)
  | t :: ts, x, srv =>
    match next io serve x (t srv) with
    | (.chunk l, x', srv') => (l :: (drain io serve ts x' srv').1, (drain io serve ts x' srv').2)
    | (.stop, _, _) => ([], .stop)
    | (.raised e, _, _) => ([], .raised e)

/-- All of it: what is handed out (one after the other; `chain.from_iterable` for `rows` and `column`), and how it ends. -/
def all {α β σ : Type} (enc : Str → Except Err Bytes) (serve : Serve σ) (cid : Str) (s : Stmt α β) (m : Method) (params : List (Option α)) (idle : Bool) (srv : σ) (ts : List (σ → σ)) : List (List (Item β)) × End :=
  match run enc serve cid s m params idle srv with
  | .error e => ([], .raised e)
  | .ok (x, srv') => drain s.outputIo serve ts x srv'

end PG.Chunks
