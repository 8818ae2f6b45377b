import Verif.Model.Connector
import Verif.Spec.PgString
/-!
# What a server should be told when a connection is made

The startup message as PostgreSQL reads it (src/backend/postmaster/postmaster.c, `ProcessStartupPacket`), the search path as it reads it
(src/backend/utils/adt/varlena.c, `SplitIdentifierString`; names are not cut off at 63 bytes here), and which values the keywords of a connector ask for.
-/
namespace PG.Spec.Connector
open PG PG.Connector PG.Spec.PgString

/-- No key is there twice. -/
def IsDict {κ β : Type} (d : List (κ × β)) : Prop := (d.map Prod.fst).Nodup

/-- What the settings say: of pairs, the last one for the name. -/
def settingSays : Settings → Str → Option Val
  | .none, _ => Option.none
  | .dict d, k => PyDict.get k d
  | .pairs l, k => ((l.filter fun e => e.1 = k).getLast?).map Prod.snd

/-- What the server should be told for a name: the user and the database stand before the settings; warnings are wanted unless the settings say otherwise. -/
def wanted (c : Args) (k : Str) : Option Val :=
  if k = "user".toList then some c.user
  else if k = "database".toList ∧ c.database ≠ .none then some c.database
  else match settingSays c.settings k with
    | some v => some v
    | Option.none => if k = "client_min_messages".toList then some (.text "WARNING".toList) else Option.none

/-- The encoding of texts: UTF-8 unless another one is given. -/
def encoding (c : Args) : Str :=
  match c.serverEncoding with
  | some (a :: s) => a :: s
  | _ => "utf-8".toList

/-- One name of a list, and the text after it: quoted, or a word, which is folded to lower case. -/
inductive Name : Str → Str → Str → Prop
  | quoted {text v rest : Str} (h : QuotedIdent text v rest) : Name text v rest
  | word {text w rest : Str} (h : lexWord text = some (w, rest)) : Name text (foldCase w) rest

/-- A list of names, separated by commas. (White space around the names, which the server also accepts, is left out.) -/
inductive Names : Str → List Str → Prop
  | one {text v : Str} (h : Name text v []) : Names text [v]
  | cons {text v rest : Str} {l : List Str} (h : Name text v (',' :: rest)) (t : Names rest l) : Names text (v :: l)

/-- The items are encoded: names in UTF-8, texts in the encoding for them, other objects by their `str()` in UTF-8. -/
inductive Encoded (E : Env) (se : Str) : List (Str × Val) → List (Bytes × Bytes) → Prop
  | nil : Encoded E se [] []
  | text {k s : Str} {kb b : Bytes} {d : List (Str × Val)} {l : List (Bytes × Bytes)} (hk : E.encode "utf-8".toList k = .ok kb) (hv : E.encode se s = .ok b)
      (t : Encoded E se d l) : Encoded E se ((k, .text s) :: d) ((kb, b) :: l)
  | other {k : Str} {v : Val} {kb b : Bytes} {d : List (Str × Val)} {l : List (Bytes × Bytes)} (hn : ∀ s, v ≠ .text s) (hk : E.encode "utf-8".toList k = .ok kb)
      (hv : E.encode "utf-8".toList (pyStr E v) = .ok b) (t : Encoded E se d l) : Encoded E se ((k, v) :: d) ((kb, b) :: l)

/-- A text up to its NUL, and what follows. -/
def cstring : Bytes → Option (Bytes × Bytes)
  | [] => none
  | b :: r => if b = 0 then some ([], r) else (cstring r).map fun x => (b :: x.1, x.2)

/-- The body of the startup message as the server reads it: names and values up to an empty name, which must be the end. -/
inductive ServerReads : Bytes → List (Bytes × Bytes) → Prop
  | done : ServerReads [0] []
  | item {b r r' k v : Bytes} {l : List (Bytes × Bytes)} (hk : cstring b = some (k, r)) (hne : k ≠ []) (hv : cstring r = some (v, r')) (t : ServerReads r' l) :
      ServerReads b ((k, v) :: l)

/-- The startup message: length, version 3.0, and the body. -/
def Message (m : Bytes) (l : List (Bytes × Bytes)) : Prop :=
  ∃ body, m = beEnc 4 (body.length + 8) ++ [0, 3, 0, 0] ++ body ∧ m.length = body.length + 8 ∧ ServerReads body l

end PG.Spec.Connector
