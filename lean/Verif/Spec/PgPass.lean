import Verif.Model.Py
/-!
# Password files (PostgreSQL documentation, "The Password File")

`hostname:port:database:username:password`; a `\` before `:` or `\` takes its special meaning away.
-/
namespace PG.Spec.PgPass
open PG

/-- The fields of a line, from left to right. -/
def fields : Str → List Str
  | [] => [[]]
  | '\\' :: '\\' :: s => (fun l => match l with | [] => [['\\']] | h :: t => ('\\' :: h) :: t) (fields s)
  | '\\' :: ':' :: s => (fun l => match l with | [] => [[':']] | h :: t => (':' :: h) :: t) (fields s)
  | ':' :: s => [] :: fields s
  | c :: s => (fun l => match l with | [] => [[c]] | h :: t => (c :: h) :: t) (fields s)

/-- How a field is written. -/
def escape (s : Str) : Str := s.flatMap fun c => if c = ':' ∨ c = '\\' then ['\\', c] else [c]

/-- An entry of the file. -/
structure Entry where
  host : Str
  port : Str
  database : Str
  user : Str
  password : Str

/-- How it is written. -/
def Entry.line (e : Entry) : Str := escape e.host ++ [':'] ++ escape e.port ++ [':'] ++ escape e.database ++ [':'] ++ escape e.user ++ [':'] ++ escape e.password

/-- A field of the entry admits a value. -/
def admits (field value : Str) : Prop := field = ['*'] ∨ field = value

/-- The entry is for the connection. -/
def Entry.Matches (e : Entry) (host port database user : Str) : Prop :=
  admits e.host host ∧ admits e.port port ∧ admits e.database database ∧ admits e.user user

end PG.Spec.PgPass
