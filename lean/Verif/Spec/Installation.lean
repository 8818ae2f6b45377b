import Verif.Model.Py
/-!
# What C68 is stated in: the output of `pg_config`, and the arguments of PostgreSQL's `configure`
-/
namespace PG.Spec.Installation
open PG

/-- A line of `pg_config`: `NAME = value`. -/
structure Row where
  name : Str
  value : Str
  deriving DecidableEq, Repr

def Row.text (r : Row) : Str := r.name ++ " = ".toList ++ r.value

/-- The names are ASCII without blanks and `=`; the value is on one line. -/
structure Row.Ok (isBreak isSpace : Char → Bool) (r : Row) : Prop where
  name : r.name ≠ [] ∧ ∀ c ∈ r.name, 33 ≤ c.toNat ∧ c.toNat < 127 ∧ c ≠ '='
  oneLine : ∀ c ∈ r.value, isBreak c = false
  front : ∀ c, r.value.head? = some c → isSpace c = false
  back : ∀ c, r.value.getLast? = some c → isSpace c = false

/-- The output: lines. -/
def printed (rows : List Row) : Str := rows.flatMap fun r => r.text ++ ['\n']

/-- The value of a name, in any case: that of the last line with it. -/
def said (rows : List Row) (name : Str) : Option Str := ((rows.filter fun r => r.name.map Char.toLower = name).getLast?).map (·.value)

/-- The names `pg_config` of PostgreSQL prints. -/
def pgNames : List Str :=
  ["BINDIR", "DOCDIR", "HTMLDIR", "INCLUDEDIR", "PKGINCLUDEDIR", "INCLUDEDIR-SERVER", "LIBDIR", "PKGLIBDIR", "LOCALEDIR", "MANDIR", "SHAREDIR", "SYSCONFDIR", "PGXS", "CONFIGURE", "CC",
    "CPPFLAGS", "CFLAGS", "CFLAGS_SL", "LDFLAGS", "LDFLAGS_EX", "LDFLAGS_SL", "LIBS", "VERSION"].map String.toList

/-- An argument of `configure`: `--name`, `--name=value`, or `NAME=value`. -/
structure Arg where
  dashes : Bool
  name : Str
  value : Option Str
  deriving DecidableEq, Repr

def Arg.text (a : Arg) : Str :=
  (if a.dashes then "--".toList else []) ++ a.name ++ (match a.value with
    | none => []
    | some v => '=' :: v)

/-- As `configure` keeps them: each in single quotes, with a blank between. -/
def kept : List Arg → Str
  | [] => []
  | [a] => '\'' :: a.text ++ ['\'']
  | a :: l => '\'' :: a.text ++ ['\'', ' '] ++ kept l

/-- A name that begins with a letter, of letters, digits, dashes and so on; a value that has no single quote. -/
structure Arg.Ok (a : Arg) : Prop where
  first : ∃ c r, a.name = c :: r ∧ c ≠ '-' ∧ c ≠ '"'
  name : '\'' ∉ a.name ∧ '=' ∉ a.name
  value : ∀ v, a.value = some v → '\'' ∉ v
  /-- The last character is neither a dash nor a double quote. -/
  last : ∀ c, a.text.getLast? = some c → c ≠ '-' ∧ c ≠ '"'

/-- The name as an attribute: `_` for `-`. -/
def underscored (n : Str) : Str := n.map fun c => if c = '-' then '_' else c

end PG.Spec.Installation
