import Verif.Spec.Reply
/-!
# What the caller of a statement should get

Written over the messages of the server's reply: rows are the messages of type `D` (68), lines of COPY data those of type `d` (100), completion tags those of
type `C` (67).
-/
namespace PG.Spec.Statement
open PG PG.Element3 PG.Xact3 PG.Spec.Xact PG.Spec.Reply

/-- The server answers the commands without an error and without asking for COPY data; its reply arrives in any batches, with well formed asynchronous messages anywhere. -/
structure Answered (cs : List Elem) (bs : List Batch) : Prop where
  ids : (bs.map (·.id)).Nodup
  batches : ∀ b ∈ bs, b.msgs ≠ [] ∧ b.id ≠ 0
  asyncs : AsyncsParse (allMsgs bs)
  reply : Reply cs (strip (allMsgs bs))
  noError : ∀ x ∈ allMsgs bs, x.1 ≠ 69
  noCopyIn : ∀ x ∈ allMsgs bs, x.1 ≠ 71

/-- The row in a message. -/
def tupleOf (x : Msg) : Option (List (Option Bytes)) :=
  if x.1 = 68 then
    match parseK .tuple x.2 with
    | .ok (.tuple t) => some t
    | _ => none
  else none

/-- The rows of a reply. -/
def tuplesOf (ms : List Msg) : List (List (Option Bytes)) := ms.filterMap tupleOf

/-- The lines of COPY data of a reply. -/
def linesOf (ms : List Msg) : List Bytes := (ms.filter fun x => x.1 = 100).map (·.2)

/-- The completion tag in a message: its text without the zero byte that ends it. -/
def tagOf (x : Msg) : Option Bytes :=
  if x.1 = 67 then
    match parseK .complete x.2 with
    | .ok (.complete t) => some t
    | _ => none
  else none

/-- The completion tags of a reply. -/
def tagsOf (ms : List Msg) : List Bytes := ms.filterMap tagOf

/-- A row decoded with a function for each column; NULL is `none`. Likewise parameters that are packed. -/
inductive Decoded {α β : Type} : List (α → Except Err β) → List (Option α) → List (Option β) → Prop
  | nil : Decoded [] [] []
  | null {f fs t r} : Decoded fs t r → Decoded (f :: fs) (none :: t) (none :: r)
  | value {f fs d v t r} : f d = .ok v → Decoded fs t r → Decoded (f :: fs) (some d :: t) (some v :: r)

/-- Rows decoded. -/
inductive AllDecoded {β : Type} (u : List (Bytes → Except Err β)) : List (List (Option Bytes)) → List (List (Option β)) → Prop
  | nil : AllDecoded u [] []
  | cons {t r ts rs} : Decoded u t r → AllDecoded u ts rs → AllDecoded u (t :: ts) (r :: rs)

/-- The decimal digits of a number. -/
def decimal (n : Nat) : Bytes := (Nat.toDigits 10 n).map fun c => UInt8.ofNat c.toNat

/-- The name of a command: letters, and blanks within. -/
structure IsName (nm : Bytes) : Prop where
  letters : ∀ b ∈ nm, (65 ≤ b ∧ b ≤ 90) ∨ b = 32
  first : ∃ b, nm.head? = some b ∧ b ≠ 32
  last : ∃ b, nm.getLast? = some b ∧ b ≠ 32

/-- PostgreSQL's completion tags: `CREATE TABLE`; `SELECT 3`, `COPY 3`; `INSERT 0 3`. With the name and the count they tell. -/
inductive IsTag : Bytes → Bytes → Option Nat → Prop
  | alone {nm} : IsName nm → IsTag nm nm none
  | counted {nm n} : IsName nm → IsTag (nm ++ 32 :: decimal n) nm (some n)
  | insert {nm o n} : IsName nm → IsTag (nm ++ 32 :: decimal o ++ 32 :: decimal n) nm (some n)

/-! ## What the commands ask for -/

/-- A run of a prepared statement: with what parameters, in what formats, and how many rows at most (`none`: all). -/
structure Run where
  statement : Bytes
  inFormats : List Bytes
  params : List (Option Bytes)
  outFormats : List Bytes
  limit : Option Int
  deriving DecidableEq, Repr

/-- The limit of Execute is read as a signed 32-bit number, and a number that is not positive is none. -/
def limitOf (n : Int) : Option Int := if 0 < n ∧ n < 2 ^ 31 then some n else none

/-- What the server runs for the commands: Bind makes a portal, Execute runs one, Close ends one. -/
def runs (portals : Bytes → Option Run) : List Elem → List Run
  | [] => []
  | .bind p s fi ps fo :: cs => runs (fun q => if q = p then some ⟨s, fi, ps, fo, none⟩ else portals q) cs
  | .execute p n :: cs => ((portals p).map fun r => { r with limit := limitOf n }).toList ++ runs portals cs
  | .str .closePortal p :: cs => runs (fun q => if q = p then none else portals q) cs
  | _ :: cs => runs portals cs

end PG.Spec.Statement
