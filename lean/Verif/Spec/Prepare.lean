import Verif.Model.Prepare
import Verif.Spec.Statement
/-!
# What preparing a statement should do

Written over the commands that are sent and the messages of the reply: types of parameters are in the message of type `t` (116), columns in that of type `T` (84).
-/
namespace PG.Spec.Prepare
open PG PG.Element3 PG.Xact3 PG.Prepare

/-- The types of the parameters in a message. -/
def typesIn (x : Msg) : Option (List Int) :=
  if x.1 = 116 then
    match parseK .attributeTypes x.2 with
    | .ok (.attributeTypes t) => some t
    | _ => none
  else none

/-- The columns in a message. -/
def columnsIn (x : Msg) : Option (List ColDesc) :=
  if x.1 = 84 then
    match parseK .tupleDescriptor x.2 with
    | .ok (.tupleDescriptor t) => some t
    | _ => none
  else none

/-- The server describes the statement: these are the types of its parameters; these are its columns, or it returns no rows (`none`). -/
structure Describes (ms : List Msg) (types : List Int) (columns : Option (List ColDesc)) : Prop where
  types : ms.filterMap typesIn = [types]
  columns : ms.filterMap columnsIn = columns.toList

/-- The message that tells the columns, or that there are none. -/
def columnsMessage : Option (List ColDesc) → Proc
  | some cs => .elem (.tupleDescriptor cs)
  | none => .elem (.empty .noData)

/-! ## The server's statements -/

/-- What the server has: the texts of the prepared statements by their names; and which it was asked to describe, with the text it had then. -/
structure Server where
  statements : Bytes → Option Bytes
  described : List (Bytes × Option Bytes)

/-- What the server does with the commands; `none` is an error. A name that is in use cannot be used again, except for the empty one; a statement that is not there cannot be described; closing one
that is not there is no error. -/
def serve (s : Server) : List Elem → Option Server
  | [] => some s
  | .parse n q _ :: cs =>
    if n ≠ [] ∧ s.statements n ≠ none then none else serve { s with statements := fun m => if m = n then some q else s.statements m } cs
  | .str .closeStatement n :: cs => serve { s with statements := fun m => if m = n then none else s.statements m } cs
  | .str .describeStatement n :: cs => if s.statements n = none then none else serve { s with described := s.described ++ [(n, s.statements n)] } cs
  | _ :: cs => serve s cs

/-! ## Routines -/

/-- Related item by item. -/
inductive Each {α β : Type} (R : α → β → Prop) : List α → List β → Prop
  | nil : Each R [] []
  | cons {a b l m} : R a b → Each R l m → Each R (a :: l) (b :: m)

/-- The routine that packs parameters of a type: its own, or the encoding of text. -/
inductive Packs {τ ν α β : Type} (T : Typio τ ν α β) : Int → (α → Except Err Bytes) → Prop
  | own {t f u} : T.resolve t = .ok (some (some f, u)) → Packs T t f
  | other {t u} : T.resolve t = .ok (some (none, u)) → Packs T t T.encode
  | unknown {t} : T.resolve t = .ok none → Packs T t T.encode

/-- The routine that unpacks columns of a type, and the format it reads: its own, the binary format (1); or decoding, the text format (0). -/
inductive Unpacks {τ ν α β : Type} (T : Typio τ ν α β) : ColDesc → (Bytes → Except Err β) × Bytes → Prop
  | own {c p f} : T.resolve c.typId = .ok (some (p, some f)) → Unpacks T c (f, [0, 1])
  | other {c p} : T.resolve c.typId = .ok (some (p, none)) → Unpacks T c (T.decode, [0, 0])
  | unknown {c} : T.resolve c.typId = .ok none → Unpacks T c (T.decode, [0, 0])

/-- Everything the client needs for a statement with these types of parameters and these columns: a packer for each parameter, an unpacker for each column, a name for each column. -/
structure Needs {τ ν α β : Type} (T : Typio τ ν α β) (types : List Int) (columns : List ColDesc) (packs : List (α → Except Err Bytes))
    (unpacks : List ((Bytes → Except Err β) × Bytes)) (names : List ν) : Prop where
  packs : Each (Packs T) types packs
  unpacks : Each (Unpacks T) columns unpacks
  names : Each (fun (c : ColDesc) n => T.decodeName c.name = .ok n) columns names

/-- A prepared statement made of a description: parameters with their types and routines (all declared as binary, see C50), columns with their names, routines and formats. The dictionary of names is that of the model (see `C60_names`). -/
structure Made {τ ν α β : Type} [DecidableEq ν] (T : Typio τ ν α β) (id : Bytes) (types : List Int) (columns : Option (List ColDesc)) (packs : List (α → Except Err Bytes))
    (unpacks : List ((Bytes → Except Err β) × Bytes)) (names : List ν) (p : Prepared ν α β) : Prop where
  id : p.id = id
  input : p.input = types
  inputIo : p.inputIo = packs
  inputFormats : p.inputFormats = types.map fun _ => [0, 1]
  output : p.output = columns
  keys : p.keys = names
  attmap : p.attmap = attmapFrom [] 0 names
  outputIo : p.outputIo = columns.map fun _ => unpacks.map Prod.fst
  outputFormats : p.outputFormats = unpacks.map Prod.snd

end PG.Spec.Prepare
