import Verif.Spec.SqlText
/-!
# What the text that calls a function should say

Facts about PostgreSQL: how names of types are read (src/backend/parser/gram.y, `SimpleTypename`), the numbers of its own types (pg_type.dat). Nothing here refers to the model.
-/
namespace PG.Spec.Procedure
open PG PG.Spec.PgString PG.Spec.SqlText

/-- The key words that name types: the type's number, and the length they imply. -/
def sqlTypes : List (List String × Nat × Option Nat) :=
  [(["boolean"], 16, none), (["smallint"], 21, none), (["integer"], 23, none), (["bigint"], 20, none), (["numeric"], 1700, none), (["real"], 700, none), (["double", "precision"], 701, none),
   (["character"], 1042, some 1), (["character", "varying"], 1043, none), (["date"], 1082, none), (["time", "without", "time", "zone"], 1083, none), (["time", "with", "time", "zone"], 1266, none),
   (["timestamp", "without", "time", "zone"], 1114, none), (["timestamp", "with", "time", "zone"], 1184, none), (["interval"], 1186, none), (["xml"], 142, none)]

/-- Types that PostgreSQL has from the beginning, in `pg_catalog`, by their names (those that are needed here). -/
def ownTypes : List (Nat × String) :=
  [(16, "bool"), (17, "bytea"), (18, "char"), (19, "name"), (20, "int8"), (21, "int2"), (23, "int4"), (24, "regproc"), (25, "text"), (26, "oid"), (27, "tid"), (28, "xid"), (29, "cid"), (142, "xml"), (600, "point"), (601, "lseg"), (603, "box"),
   (650, "cidr"), (700, "float4"), (701, "float8"), (702, "abstime"), (718, "circle"), (790, "money"), (829, "macaddr"), (869, "inet"), (1033, "aclitem"), (1042, "bpchar"), (1043, "varchar"), (1082, "date"), (1083, "time"),
   (1114, "timestamp"), (1184, "timestamptz"), (1186, "interval"), (1266, "timetz"), (1560, "bit"), (1562, "varbit"), (1700, "numeric"), (2202, "regprocedure"), (2203, "regoper"), (2204, "regoperator"), (2205, "regclass"),
   (2206, "regtype"), (2275, "cstring"), (2950, "uuid"), (3802, "jsonb")]

/-- `Names catalog tokens t length`: the tokens name the type with the number `t`; `length` is the length to which a value is cut. A qualified name has no length. -/
inductive Names (catalog : Str → Str → Option Nat) : List Tok → Nat → Option Nat → Prop
  | sql {ws t n} : (ws, t, n) ∈ sqlTypes → Names catalog (ws.map kw) t n
  | qualified {a b nsp name t} : names a nsp → names b name → catalog nsp name = some t → Names catalog [a, .sym '.', b] t none

/-- An explicit cast of a string to a type with a length: what is longer is cut off, without an error. -/
def castString (length : Option Nat) (s : Str) : Str :=
  match length with
  | none => s
  | some n => s.take n

/-- `$n::type`. -/
def argument (n : Nat) (type : List Tok) : List Tok := .param n :: .sym ':' :: .sym ':' :: type

/-- `$n::type, $n+1::type, …`. -/
def arguments (n : Nat) : List (List Tok) → List Tok
  | [] => []
  | [t] => argument n t
  | t :: u :: l => argument n t ++ .sym ',' :: arguments (n + 1) (u :: l)

/-- Definitions of columns, with commas. -/
def commas : List (List Tok) → List Tok
  | [] => []
  | [t] => t
  | t :: u :: l => t ++ .sym ',' :: commas (u :: l)

/-- `AS func`, or `AS func(columns)`. -/
def aliased (columns : List (List Tok)) : List Tok := kw "as" :: kw "func" :: (if columns = [] then [] else .sym '(' :: (commas columns ++ [.sym ')']))

/-- Before any of these characters, the text is read as the tokens, and in no other way. -/
def ReadsAs (before text : Str) (toks : List Tok) : Prop := ∀ c ∈ before, ∀ rest l, Lex (text ++ c :: rest) l ↔ ∃ l', l = toks ++ l' ∧ Lex (c :: rest) l'

/-- Columns that are defined by texts. -/
inductive Columns : List Str → List (List Tok) → Prop
  | nil : Columns [] []
  | cons {t ts c cs} : ReadsAs [',', ')'] t c → .sym ';' ∉ c → Columns ts cs → Columns (t :: ts) (c :: cs)

/-- Each of the lists of tokens names the type, and no length. -/
inductive NamesAll (catalog : Str → Str → Option Nat) : List (List Tok) → List Nat → Prop
  | nil : NamesAll catalog [] []
  | cons {n ns t ts} : Names catalog n t none → NamesAll catalog ns ts → NamesAll catalog (n :: ns) (t :: ts)

/-- The name of a function as PostgreSQL writes it (`regproc`): a word in lower case or a quoted name; or two of them, with a point. -/
inductive Part : Str → Tok → Prop
  | bare {w} : lexWord w = some (w, []) → foldCase w = w → Part w (.word w)
  | quoted {v} : v ≠ [] → Part ('"' :: (v.flatMap fun c => if c = '"' then ['"', '"'] else [c]) ++ ['"']) (.ident v)

inductive FunctionName : Str → List Tok → Prop
  | alone {w t} : Part w t → FunctionName w [t]
  | qualified {w t w' t'} : Part w t → Part w' t' → FunctionName (w ++ '.' :: w') [t, .sym '.', t']

/-- `SELECT * FROM function($1::type, …) AS func`. -/
def selects (function : List Tok) (types : List (List Tok)) (columns : List (List Tok)) : List Tok :=
  [kw "select", .sym '*', kw "from"] ++ function ++ .sym '(' :: (arguments 1 types ++ .sym ')' :: aliased columns)

/-- What the parameters of a call should be: those given by name at the places of their names, the others in order at the places that are left (`n` counts them); nothing is left over. -/
def bound {α : Type} (positions : Str → Option Nat) (args : List α) (kw : List (Str × α)) (l : List α) : Prop :=
  l.length = args.length + kw.length ∧ (∀ e ∈ kw, ∃ i, positions e.1 = some i ∧ l[i]? = some e.2) ∧
    ∃ rest : List Nat, rest.length = args.length ∧ rest.Pairwise (· < ·) ∧ (∀ i ∈ rest, ∀ e ∈ kw, positions e.1 ≠ some i) ∧ rest.map (l[·]?) = args.map some

end PG.Spec.Procedure
