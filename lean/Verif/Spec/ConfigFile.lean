import Verif.Model.PyStr
/-!
# The lines of a configuration file

`[blanks and #] name [blanks] = [blanks] value [anything]`. A value is a run of visible characters and quoted texts; in a quoted text a quote
is doubled; what follows the value begins with a blank or a `#`.
-/
namespace PG.Spec.ConfigFile
open PG

/-- `Value v t`: of `v` followed by `t`, `v` is the value. -/
inductive Value (U : Unicode) : Str → Str → Prop
  /-- it ends at a blank or a comment, or with the line -/
  | stop {t} : (∀ c, t.head? = some c → U.isSpace c = true ∨ c = '#') → Value U [] t
  /-- a visible character -/
  | plain {c v t} : c ≠ '\'' → c ≠ '#' → U.isSpace c = false → Value U v t → Value U (c :: v) t
  /-- a quoted text -/
  | quoted {q v t} : (v ++ t).head? ≠ some '\'' → Value U v t → Value U ('\'' :: PyStr.double '\'' q ++ '\'' :: v) t
  /-- a quoted text that is not ended runs to the end of the line -/
  | unended {q} : Value U ('\'' :: PyStr.double '\'' q) []

/-- How a line is divided. -/
structure Parts (U : Unicode) (l before key gap between value after : Str) : Prop where
  whole : l = before ++ key ++ gap ++ '=' :: between ++ value ++ after
  before_chars : ∀ c ∈ before, U.isSpace c = true ∨ c = '#'
  key_chars : ∀ c ∈ key, U.isAlpha c = true ∨ U.isDigit c = true ∨ c = '_'
  gap_chars : ∀ c ∈ gap, U.isSpace c = true
  gap_key : key = [] → gap = []
  between_chars : ∀ c ∈ between, U.isSpace c = true ∧ c ≠ '\n' ∧ c ≠ '\r'
  between_all : ∀ c, (value ++ after).head? = some c → U.isSpace c = true → c = '\n' ∨ c = '\r'
  value_is : Value U value after

/-- The line sets `key`, in effect, with this value text. -/
def Sets (U : Unicode) (l key value : Str) : Prop := ∃ before gap between after, Parts U l before key gap between value after ∧ '#' ∉ before

/-- The line is about `key`, in effect or as a comment. -/
def Mentions (U : Unicode) (l key : Str) : Prop := ∃ before gap between value after, Parts U l before key gap between value after

/-- The text of a quoted value. -/
def quote (v : Str) : Str := '\'' :: PyStr.double '\'' v ++ ['\'']

/-- No line ends in the text. -/
def OneLine (x : Str) : Prop := '\n' ∉ x ∧ '\r' ∉ x

/-- The lines of a text file: each ends with a newline, but the last may not. -/
def Wf (L : List Str) : Prop := ∃ A rest, L = A ++ rest ∧ (∀ l ∈ A, ∃ x, l = x ++ ['\n'] ∧ OneLine x) ∧ (rest = [] ∨ ∃ x, rest = [x] ∧ x ≠ [] ∧ OneLine x)

/-- What may be done to a line by settings `map`; `e` is the newline added to a last line that had none. -/
inductive Edit (U : Unicode) (map : List (Str × Option Str)) (l e : Str) : Str → Prop
  /-- nothing -/
  | none : Edit U map l e (l ++ e)
  /-- a line about one of the keys is made a comment -/
  | comment {k s v} : (k, v) ∈ map → Mentions U l s → U.lower s = U.lower k → Edit U map l e ('#' :: l ++ e)
  /-- the value of a line about one of the keys is replaced, a comment in front is taken away; what follows the value stays -/
  | value {k v a s b p w t} : (k, some v) ∈ map → Parts U l a s b p w t → U.lower s = U.lower k →
      Edit U map l e ((if '#' ∈ a then [] else a) ++ s ++ b ++ '=' :: p ++ quote v ++ (t ++ e))
  /-- it is made a comment if it was none -/
  | value_comment {k v a s b p w t x y} : (k, some v) ∈ map → Parts U l a s b p w t → U.lower s = U.lower k → t ++ e = x ++ y → (∀ c ∈ x, U.isSpace c = true) →
      Edit U map l e ((if '#' ∈ a then [] else a) ++ s ++ b ++ '=' :: p ++ quote v ++ x ++ '#' :: y)

end PG.Spec.ConfigFile
