import Verif.Model.Fetch
import Verif.Model.Row
/-!
# Model of what calling a statement returns: `Statement.__call__`, `first`, `rows`, `column` in `postgresql/driver/pq3.py`

The wire is a list of batches of messages, as in the model of result streams.  Decoding a column is a parameter (`unpack`).
Not modelled: COPY FROM STDIN run through these methods; the texts of errors; `decode('ascii')` of a tag (tags are ASCII).
-/
namespace PG.Statement
open PG PG.Element3 PG.Xact3 PG.Fetch PG.Row

/-! ## Completion tags: element3.py:250-266 -/

/-- `bytes.split()` separates at these. -/
def isSpaceB (b : UInt8) : Bool := b = 32 || (9 ≤ b && b ≤ 13)
/-- `bytes.isdigit()` for one byte. -/
def isDigitB (b : UInt8) : Bool := 48 ≤ b && b ≤ 57

/-- `bytes.split()`; `w` is the word that is being read. -/
def wordsFrom (w : Bytes) : Bytes → List Bytes
  | [] => if w = [] then [] else [w]
  | b :: bs => if isSpaceB b then (if w = [] then wordsFrom [] bs else w :: wordsFrom [] bs) else wordsFrom (w ++ [b]) bs

/-- `bytes.split()`. -/
def words (d : Bytes) : List Bytes := wordsFrom [] d

/-- `x.isdigit()`. -/
def isDigits (w : Bytes) : Bool := w ≠ [] && w.all isDigitB

/-- `int(x)` of digits. -/
def intOf (w : Bytes) : Nat := w.foldl (fun n b => 10 * n + (b.toNat - 48)) 0

/-- element3.py:250-259 `Complete.extract_count`. -/
def extractCount (data : Bytes) : Option Nat := ((words data).reverse.find? isDigits).map intOf

/-- The bytes of `b'\r\n\t 0123456789'`. -/
def tagStrip (b : UInt8) : Bool := b = 13 || b = 10 || b = 9 || b = 32 || isDigitB b

/-- element3.py:261-266 `Complete.extract_command`: `data.strip(...) or None`. -/
def extractCommand (data : Bytes) : Option Bytes :=
  let r := ((data.dropWhile tagStrip).reverse.dropWhile tagStrip).reverse
  if r = [] then none else some r

/-! ## Rows -/

/-- The row in a message. -/
def rowOf : Proc → Option (List (Option Bytes))
  | .elem (.tuple t) => some t
  | _ => none

/-- pq3.py:769-776 `_process_tuple_chunk_Row`, for one row: `process_tuple`; the handler raises the client's error. -/
def decodeRow {β : Type} (unpack : List (Bytes → Except Err β)) (p : Proc) : Option (List (Option β)) :=
  match rowOf p with
  | some t => match processTuple unpack t with
    | .ok r => some r
    | .error _ => none
  | none => none

/-- pq3.py:742-748 `_process_copy_chunk`: the lines. -/
def decodeLine : Proc → Option Bytes
  | .raw d => some d
  | _ => none

/-- pq3.py:751-766 `_process_tuple_chunk_Column`, for one row: `unpack(l[i])`; `None` is passed to the unpacker as well, which raises. -/
def decodeColumn {β : Type} (unpack : List (Bytes → Except Err β)) (p : Proc) : Option β :=
  match rowOf p with
  | some (some d :: _) => match unpack with
    | f :: _ => match f d with
      | .ok v => some v
      | .error _ => none
    | [] => none
  | _ => none

/-- How making a column chunk ends: its values; or the error that names the column; or TypeError, of `next(r)` where `r` is a range. -/
inductive Column (β : Type) where
  | values (l : List β)
  | columnError
  | typeError
  deriving DecidableEq, Repr

/-- pq3.py:751-766 `_process_tuple_chunk_Column`: if unpacking raises, `next(r)` does as well (a range is not an iterator). -/
def columnChunk {β : Type} (unpack : List (Bytes → Except Err β)) (ps : List Proc) : Column β :=
  match ps.mapM (decodeColumn unpack) with
  | some l => .values l
  | none => .typeError

/-! ## `first` -/

/-- What `first` returns. -/
inductive First (β : Type) where
  | none
  | value (v : β)
  | row (l : List (Option β))
  | count (n : Nat)
  | command (c : Bytes)
  | raised
  | blocked
  deriving DecidableEq, Repr

/-- pq3.py:1664-1676: the commands. -/
def firstCommands (stmt : Bytes) (inFormats : List Bytes) (params : List (Option Bytes)) (outFormats : List Bytes) : List Elem :=
  [.bind [] stmt inFormats params outFormats, .execute [] 0xFFFFFFFF, .str .closePortal [], .empty .synchronize]

/-- pq3.py:1683-1707: the row. -/
def firstRow {β : Type} (unpack : List (Bytes → Except Err β)) (ms : List Proc) : First β :=
  match ms.findSome? rowOf with
  | none => .none
  | some t =>
    if unpack.length > 1 then
      match processTuple unpack t with
      | .ok r => .row r
      | .error _ => .raised
    else match t, unpack with
      | none :: _, _ => .none
      | some d :: _, f :: _ => match f d with
        | .ok v => .value v
        | .error _ => .raised
      | _, _ => .raised

/-- pq3.py:1708-1728: the count or the command. -/
def firstTag {β : Type} (ms : List Proc) : First β :=
  match ms.find? isComplete with
  | some (.elem (.complete d)) => match extractCount d with
    | some n => .count n
    | none => match extractCommand d with
      | some c => .command c
      | none => .none
  | _ => .none

/-- pq3.py:1683-1728: `unpack` is `_output_io`; `[]` if the statement returns no rows (`None`), or rows without columns. -/
def firstOf {β : Type} (unpack : List (Bytes → Except Err β)) (ms : List Proc) : First β :=
  if unpack ≠ [] then firstRow unpack ms else firstTag ms

/-- pq3.py:1679-1728: push, complete, and the result; `i` is the transaction with its commands sent. -/
def firstRun {β : Type} (unpack : List (Bytes → Except Err β)) (i : Inst) (bs : List Batch) : First β :=
  match steps (fun _ => false) i bs with
  | (_, _, .blocked) => .blocked
  | (_, _, .raised) => .raised
  | (i, _, .fine) => if i.fatal ≠ none then .raised else firstOf unpack (messagesReceived i)

/-- pq3.py:1641-1728 `first`: `TypeError` for a wrong number of parameters and the client's error for one that cannot be packed come before
anything is sent: here `raised` with no commands. -/
def first {α β : Type} (pack : List (α → Except Err Bytes)) (unpack : List (Bytes → Except Err β)) (stmt : Bytes) (inFormats outFormats : List Bytes)
    (params : List (Option α)) (bs : List Batch) : List Elem × First β :=
  if params.length ≠ pack.length then ([], .raised)
  else match processTuple pack params with
    | .error _ => ([], .raised)
    | .ok ps => match Xact3.init (firstCommands stmt inFormats ps outFormats) with
      | .error _ => ([], .raised)
      | .ok s0 => (firstCommands stmt inFormats ps outFormats, firstRun unpack (sent s0) bs)

/-! ## `__call__` -/

/-- What a call returns. -/
inductive Called (β : Type) where
  | command (c : Bytes) (n : Option Nat)
  | rows (l : List (List (Option β)))
  | lines (l : List Bytes)
  | raised
  | blocked
  deriving DecidableEq, Repr

/-- `for x in c: r.extend(x)`; every pass takes a batch or ends. -/
def extend {β : Type} (decode : List Proc → Option (List β)) (a : All) : List β × Out β :=
  match iterate decode (List.replicate (size a + 2) false) a with
  | (l, o, _) => (l.flatten, o)
where
  /-- An upper bound for the number of passes: the batches collected and to come. -/
  size (a : All) : Nat := (match a.xact with | some i => i.completed.length | none => 0) + a.wire.length

/-- pq3.py:682-692 `_pq_xp_fetchall`, 881-883: the commands. -/
def callCommands (stmt : Bytes) (inFormats : List Bytes) (params : List (Option Bytes)) (outFormats : List Bytes) : List Elem :=
  [.bind [] stmt inFormats params outFormats, .execute [] 0xFFFFFFFF, .empty .synchronize]

/-- pq3.py:1570-1594 `__call__`, for the transaction with its commands sent; `unpack` is `_output_io`, `none` if no rows are returned. -/
def callRun {β : Type} (unpack : Option (List (Bytes → Except Err β))) (i : Inst) (bs : List Batch) : Called β :=
  match unpack with
  | none =>
    match Fetch.init true i bs with
    | (.blocked, _) => .blocked
    | (.raised, _) => .raised
    | (.fine, a) =>
      match a.complete with
      | some (.elem (.complete d)) => match extractCommand d with
        | some c => .command c (extractCount d)
        | none => .raised
      | _ => match extend (perRow decodeLine) a with
        | (l, .stop) => .lines l
        | (_, .blocked) => .blocked
        | _ => .raised
  | some u =>
    match Fetch.init false i bs with
    | (.blocked, _) => .blocked
    | (.raised, _) => .raised
    | (.fine, a) => match extend (perRow (decodeRow u)) a with
      | (l, .stop) => .rows l
      | (_, .blocked) => .blocked
      | _ => .raised

/-- pq3.py:1564-1594 `__call__`: wrong parameters are found before anything is sent (1565-1569, 1353-1357). -/
def call {α β : Type} (pack : List (α → Except Err Bytes)) (unpack : Option (List (Bytes → Except Err β))) (stmt : Bytes) (inFormats outFormats : List Bytes)
    (params : List (Option α)) (bs : List Batch) : List Elem × Called β :=
  if params.length ≠ pack.length then ([], .raised)
  else match processTuple pack params with
    | .error _ => ([], .raised)
    | .ok ps => match Xact3.init (callCommands stmt inFormats ps outFormats) with
      | .error _ => ([], .raised)
      | .ok s0 => (callCommands stmt inFormats ps outFormats, callRun unpack (sent s0) bs)

end PG.Statement
