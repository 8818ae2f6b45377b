import Verif.Model.Iri
/-!
# What a PQ IRI can carry, and when two parameter dictionaries are the same
-/
namespace PG.Spec.Iri
open PG PG.Iri PG.PyDict

/-- Two values are the same: objects come back as their text, dictionaries of settings in any order. -/
inductive SameVal : PVal → PVal → Prop
  | text (s) : SameVal (.text s) (.text s)
  | obj (s) : SameVal (.text s) (.obj s)
  | list (l) : SameVal (.list l) (.list l)
  | dict (a b) (h : ∀ k, get k a = get k b) : SameVal (.dict a) (.dict b)

/-- The same keys, with the same values. -/
def Same (x y : Params) : Prop :=
  ∀ k, (get k x = none ∧ get k y = none) ∨ ∃ v w, get k x = some v ∧ get k y = some w ∧ SameVal v w

/-- A character that is never escaped. -/
def Bare (c : Char) : Prop := c ≠ '%' ∧ 32 < c.toNat

/-- A database name or further path component that comes back: it is written as it is, as a replacement template. -/
def PlainPath (s : Str) : Prop := '/' ∉ s ∧ '?' ∉ s ∧ '#' ∉ s ∧ '\\' ∉ s

/-- A host that comes back: a name, or an address with colons that needs no escapes. -/
def HostName (h : Str) : Prop :=
  (':' ∉ h ∧ h.head? ≠ some '[') ∨
  (':' ∈ h ∧ ¬ "unix:".toList <+: h ∧ ∀ c ∈ h, Bare c ∧ c ≠ ']' ∧ c ≠ '/' ∧ c ≠ '?' ∧ c ≠ '#')

/-- A socket path that comes back: slashes are written as colons. -/
def SocketPath (u : Str) : Prop := ∀ c ∈ u, Bare c ∧ c ≠ ':' ∧ c ≠ ']' ∧ c ≠ '?' ∧ c ≠ '#'

/-- `str` or an object written as its `str()`. -/
def Written (v : PVal) (s : Str) : Prop := v = .text s ∨ v = .obj s

/-- The settings that come back. -/
structure SettingsOk (d : List (Str × SVal)) : Prop where
  some : d ≠ []
  keys : (d.map Prod.fst).Nodup
  vals : ∀ k v, (k, v) ∈ d →
    (k = "search_path".toList ∧ ∃ l, v = .list l ∧ l ≠ [] ∧ l ≠ [[]]) ∨
    (k ≠ "search_path".toList ∧ k ≠ [] ∧ ¬ (k.head? = Option.some '[' ∧ k.getLast? = Option.some ']') ∧ ∃ s, v = .text s)

/-- The parameters a PQ IRI carries without loss. -/
structure Carried (x : Params) : Prop where
  keys : (x.map Prod.fst).Nodup
  user : ∀ v, get "user".toList x = some v → ∃ s, v = .text s
  password : ∀ v, get "password".toList x = some v → (∃ s, v = .text s) ∧ get "user".toList x ≠ none
  unix : ∀ v, get "unix".toList x = some v → (∃ u, v = .text u ∧ SocketPath u ∧ (get "user".toList x = none → '@' ∉ u)) ∧ get "host".toList x = none
  host : ∀ v, get "host".toList x = some v →
    ∃ h, v = .text h ∧ HostName h ∧ (h = [] → get "port".toList x ≠ none) ∧ (get "user".toList x = none → '@' ∉ h)
  port : ∀ v, get "port".toList x = some v →
    (∃ s, Written v s ∧ (get "user".toList x = none → '@' ∉ s)) ∧ (get "host".toList x ≠ none ∨ get "unix".toList x ≠ none)
  database : ∀ v, get "database".toList x = some v → ∃ s, v = .text s ∧ s ≠ [] ∧ PlainPath s
  path : ∀ v, get "path".toList x = some v → (∃ l, v = .list l ∧ l ≠ [] ∧ ∀ s ∈ l, PlainPath s) ∧ get "database".toList x ≠ none
  ssl : get "ssl".toList x = none
  ipv : get "ipv".toList x = none
  settings : ∀ v, get "settings".toList x = some v → ∃ d, v = .dict d ∧ SettingsOk d
  driver : ∀ k v, (k, v) ∈ x →
    k ∉ ["user".toList, "password".toList, "port".toList, "database".toList, "ssl".toList, "path".toList, "host".toList, "unix".toList, "ipv".toList, "settings".toList] →
    (∃ s, Written v s) ∧ ∀ c ∈ k, Bare c ∧ c ≠ '&' ∧ c ≠ '=' ∧ c ≠ '#'

end PG.Spec.Iri
