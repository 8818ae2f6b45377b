import Verif.Model.Chunks
/-!
# A PostgreSQL server, for C86

What its documentation says of Parse, Bind, Execute and Sync, DECLARE … WITH HOLD and FETCH. Queries are evaluated by a parameter. Portals and cursors share their names.
-/
namespace PG.Spec.Chunks
open PG PG.Element3 PG.Chunks

/-- How the server reads an SQL text. -/
inductive Sql where
  /-- `DECLARE name … CURSOR WITH HOLD FOR query` -/
  | declare (name query : Bytes)
  /-- `FETCH FORWARD n IN name` -/
  | fetch (name : Bytes) (n : Nat)
  | other
  deriving DecidableEq, Repr

/-- What a query gives: rows, and then possibly an error; the lines of a COPY; or nothing (a command). -/
inductive Result (ω : Type) where
  | rows (l : List ω) (fails : Bool)
  | copy (l : List Bytes)
  | nothing
  | refused
  deriving DecidableEq, Repr

/-- A database: how it reads texts; what queries give (for parameter formats and parameters); whether a query can be declared as a cursor (SELECT and VALUES can, INSERT … RETURNING cannot); how a row is sent in given formats. -/
structure Db (ω : Type) where
  reads : Bytes → Sql
  eval : Bytes → List Bytes → List (Option Bytes) → Result ω
  declarable : Bytes → Bool
  wire : List Bytes → ω → List (Option Bytes)

/-- What a portal is for. -/
inductive Portal (ω : Type) where
  | query (rows : List ω) (fails : Bool) (formats : List Bytes) (held : Bool)
  | copy (l : List Bytes)
  | nothing
  | declare (name query : Bytes) (formats : List Bytes) (params : List (Option Bytes))
  | fetch (name : Bytes) (n : Nat) (formats : List Bytes)
  deriving DecidableEq, Repr

/-- Whether a session is in a transaction block. -/
inductive Block where
  | idle
  | inBlock
  | aborted
  deriving DecidableEq, Repr

/-- A session: prepared statements (the text of each), portals, and the block. -/
structure Srv (ω : Type) where
  statements : Bytes → Option Bytes
  portals : Bytes → Option (Portal ω)
  block : Block

variable {ω : Type}

/-- `f` with another value at a point. -/
def put {β : Type} (f : Bytes → Option β) (k : Bytes) (v : β) : Bytes → Option β := fun x => if x = k then some v else f x

/-- The limit of an Execute: zero and negative numbers (of 32 bits) are no limit. -/
def limit (n : Int) : Option Nat := if n ≤ 0 ∨ 2 ^ 31 ≤ n then none else some n.toNat

/-- Running a query for at most `n` rows: what is sent, and the rows that are left. -/
def rowsUpTo (D : Db ω) (formats : List Bytes) (rows : List ω) (fails : Bool) : Option Nat → List Reply × List ω
  | none => (rows.map (fun r => .tuple (D.wire formats r)) ++ [if fails then .failed else .complete], [])
  | some n =>
    if n ≤ rows.length then ((rows.take n).map (fun r => .tuple (D.wire formats r)) ++ [.suspended], rows.drop n)
    else (rows.map (fun r => .tuple (D.wire formats r)) ++ [if fails then .failed else .complete], [])

/-- Bind, of a statement with a text. -/
def bindText (D : Db ω) (s : Srv ω) (portal : Bytes) (inFormats : List Bytes) (params : List (Option Bytes)) (outFormats : List Bytes) (text : Bytes) : List Reply × Srv ω :=
  match D.reads text with
  | .declare name query =>
    if D.declarable query then ([.noise], { s with portals := put s.portals portal (.declare name query inFormats params) }) else ([.failed], s)
  | .fetch name n => ([.noise], { s with portals := put s.portals portal (.fetch name n outFormats) })
  | .other => match D.eval text inFormats params with
    | .rows l fails => ([.noise], { s with portals := put s.portals portal (.query l fails outFormats false) })
    | .copy l => ([.noise], { s with portals := put s.portals portal (.copy l) })
    | .nothing => ([.noise], { s with portals := put s.portals portal .nothing })
    | .refused => ([.failed], s)

/-- FETCH from a cursor. -/
def fetchFrom (D : Db ω) (s : Srv ω) (name : Bytes) (n : Nat) (formats : List Bytes) : Option (Portal ω) → List Reply × Srv ω
  | some (.query rows fails f held) =>
    if .failed ∈ (rowsUpTo D formats rows fails (some n)).1 then ((rowsUpTo D formats rows fails (some n)).1, s)
    else ((rowsUpTo D formats rows fails (some n)).1.filter (· ≠ .suspended) ++ [.complete], { s with portals := put s.portals name (.query (rowsUpTo D formats rows fails (some n)).2 fails f held) })
  | _ => ([.failed], s)

/-- DECLARE. -/
def declareAs (s : Srv ω) (name : Bytes) : Result ω → List Reply × Srv ω
  | .rows l fails => if (s.portals name).isSome then ([.failed], s) else ([.complete], { s with portals := put s.portals name (.query l fails [] true) })
  | _ => ([.failed], s)

/-- Execute, of a portal. -/
def executePortal (D : Db ω) (s : Srv ω) (portal : Bytes) (max : Option Nat) : Option (Portal ω) → List Reply × Srv ω
  | some (.query rows fails formats held) =>
    ((rowsUpTo D formats rows fails max).1, { s with portals := put s.portals portal (.query (rowsUpTo D formats rows fails max).2 fails formats held) })
  | some (.copy l) => (.copyBegin :: l.map .line ++ [.complete], s)
  | some .nothing => ([.complete], s)
  | some (.declare name query inFormats params) => declareAs s name (D.eval query inFormats params)
  | some (.fetch name n formats) => fetchFrom D s name n formats (s.portals name)
  | none => ([.failed], s)

/-- One command: the replies and the new state; a reply `failed` ends the exchange. -/
def one (D : Db ω) (s : Srv ω) : Elem → List Reply × Srv ω
  | .parse name text _ => if s.block = .aborted then ([.failed], s) else ([.noise], { s with statements := put s.statements name text })
  | .bind portal stmt inFormats params outFormats =>
    if s.block = .aborted ∨ (portal ≠ [] ∧ (s.portals portal).isSome) then ([.failed], s)
    else match s.statements stmt with
      | none => ([.failed], s)
      | some text => bindText D s portal inFormats params outFormats text
  | .execute portal max => executePortal D s portal (limit max) (s.portals portal)
  | _ => ([.noise], s)

/-- Whether a cursor survives the transaction. -/
def keeps : Portal ω → Bool
  | .query _ _ _ held => held
  | _ => false

/-- A held cursor that is going to fail. -/
def bad : Portal ω → Bool
  | .query _ fails _ held => held && fails
  | _ => false

/-- Sync: outside of a block the transaction is committed: what held cursors have still to give is computed (`names` are the cursors made in this exchange), all other portals are closed. -/
def sync (s : Srv ω) (names : List Bytes) : List Reply × Srv ω :=
  if s.block = .idle then
    if names.any fun n => (s.portals n).any bad then ([.failed], { s with portals := fun k => if k ∈ names then none else (s.portals k).filter keeps })
    else ([], { s with portals := fun k => (s.portals k).filter keeps })
  else ([], s)

/-- After an error: outside of a block everything of the exchange is undone (`s0` is the session before it); in a block the transaction is aborted, its portals cannot be used. -/
def undo (s0 s : Srv ω) : Srv ω :=
  if s0.block = .idle then { s with portals := fun k => (s0.portals k).filter keeps } else { s with portals := fun k => (s0.portals k).filter keeps, block := .aborted }

/-- The cursor that a portal declares. -/
def declaredBy : Option (Portal ω) → List Bytes
  | some (.declare name ..) => [name]
  | _ => []

/-- The cursor that a command declares. -/
def declares (s : Srv ω) : Elem → List Bytes
  | .execute portal _ => declaredBy (s.portals portal)
  | _ => []

/-- The commands of an exchange, from the session before it: the first error ends it. -/
def exchange (D : Db ω) (s0 : Srv ω) : List Bytes → Srv ω → List Elem → List Reply × Srv ω
  | _, s, [] => ([], s)
  | names, s, e :: es =>
    if e = .empty .synchronize then sync s names
    else if .failed ∈ (one D s e).1 then ((one D s e).1, undo s0 (one D s e).2)
    else ((one D s e).1 ++ (exchange D s0 (names ++ declares s e) (one D s e).2 es).1, (exchange D s0 (names ++ declares s e) (one D s e).2 es).2)

/-- The server. -/
def serve (D : Db ω) : Serve (Srv ω) := fun s es => exchange D s [] s es

/-- What `rows` makes of a row of the server, and `chunks`, and `column`. -/
def decoded {β : Type} (D : Db ω) (io : List (Bytes → Except Err β)) (formats : List Bytes) (m : Method) (r : ω) : Except Err (Item β) :=
  match m with
  | .chunks => (decodeTuple io (.tuple (D.wire formats r))).map .tuple
  | .rows => (decodeTuple io (.tuple (D.wire formats r))).map .row
  | .column => match io with
    | f :: _ => (decodeValue f (.tuple (D.wire formats r))).map .value
    | [] => .error .indexError

/-- What iterating over the rows `R` of a query gives (`fails`: the query then fails): `out` are the chunks, `e` is how it ends. Every chunk has rows, at most 4096. What was handed out are the first rows, decoded, each once and in order. It ends normally only when that
was everything and the query did not fail; and it does, if all rows can be decoded. If it raises then the error of the server, not more than a chunk early, or the error of a row. -/
structure Delivered {β : Type} (dec : ω → Except Err (Item β)) (fails : Bool) (R : List ω) (out : List (List (Item β))) (e : End) : Prop where
  sizes : ∀ c ∈ out, c ≠ [] ∧ c.length ≤ 4096
  prefix_ : (R.take out.flatten.length).mapM dec = .ok out.flatten
  stop : e = .stop → out.flatten.length = R.length ∧ fails = false
  done : ∀ items, fails = false → R.mapM dec = .ok items → e = .stop
  raised : ∀ er, e = .raised er → (fails = true ∧ er = .runtimeError ∧ R.length < out.flatten.length + 4096) ∨ R.mapM dec = .error er
  more : e ≠ .more

/-- What else may happen on the connection while a held cursor is read: anything that does not touch the cursor and does not leave an aborted transaction. -/
def Apart (c : Bytes) (t : Srv ω → Srv ω) : Prop := ∀ s, (t s).portals c = s.portals c ∧ (s.block ≠ .aborted → (t s).block ≠ .aborted)

/-- The same, in the same transaction block. -/
def Within (c : Bytes) (t : Srv ω → Srv ω) : Prop := ∀ s, (t s).portals c = s.portals c ∧ (s.block = .inBlock → (t s).block = .inBlock)

end PG.Spec.Chunks
