import Verif.Model.Py
/-!
# Python `str` methods, as used by the modelled code

Strings are lists of code points. The methods that consult the Unicode database (`isalnum`, `isdecimal`, `isspace`, `lower`, the `\w` of `re`)
are parameters, with the facts about ASCII characters the proofs use.
-/
namespace PG

/-- The Unicode database as Python's `str` and `re` consult it. -/
structure Unicode where
  isAlnum : Char → Bool
  isAlpha : Char → Bool
  isDigit : Char → Bool
  isDecimal : Char → Bool
  isSpace : Char → Bool
  isWord : Char → Bool
  lower : Str → Str
  alnum_not_space : ∀ c, isAlnum c = true → isSpace c = false
  alpha_ascii : ∀ c : Char, c.toNat < 128 → isAlpha c = c.isAlpha
  digit_ascii : ∀ c : Char, c.toNat < 128 → isDigit c = c.isDigit
  alpha_not_space : ∀ c, isAlpha c = true ∨ isDigit c = true → isSpace c = false
  alnum_ascii : ∀ c : Char, c.toNat < 128 → isAlnum c = c.isAlphanum
  decimal_ascii : ∀ c : Char, c.toNat < 128 → isDecimal c = c.isDigit
  space_ascii : ∀ c : Char, c.toNat < 128 → isSpace c = decide ((9 ≤ c.toNat ∧ c.toNat ≤ 13) ∨ (28 ≤ c.toNat ∧ c.toNat ≤ 32))
  word_ascii : ∀ c : Char, c.toNat < 128 → isWord c = (c.isAlphanum || c = '_')
  lower_ascii : ∀ s : Str, (∀ c ∈ s, c.toNat < 128) → lower s = s.map Char.toLower

/-- The assumptions on the Unicode database can be met: ASCII alone. -/
def Unicode.ascii : Unicode where
  isAlnum c := c.isAlphanum
  isAlpha c := c.isAlpha
  isDigit c := c.isDigit
  isDecimal c := c.isDigit
  isSpace c := decide ((9 ≤ c.toNat ∧ c.toNat ≤ 13) ∨ (28 ≤ c.toNat ∧ c.toNat ≤ 32))
  isWord c := c.isAlphanum || c = '_'
  lower s := s.map Char.toLower
  alnum_not_space c h := by
    simp only [Char.isAlphanum, Char.isAlpha, Char.isUpper, Char.isLower, Char.isDigit, Bool.or_eq_true, Bool.and_eq_true, decide_eq_true_eq] at h
    have g1 : (c.val ≥ 'A'.val) ↔ 65 ≤ c.toNat := Iff.rfl
    have g3 : (c.val ≥ 'a'.val) ↔ 97 ≤ c.toNat := Iff.rfl
    have g5 : (c.val ≥ '0'.val) ↔ 48 ≤ c.toNat := Iff.rfl
    rw [g1, g3, g5] at h
    simp; omega
  alpha_not_space c h := by
    simp only [Char.isAlpha, Char.isUpper, Char.isLower, Char.isDigit, Bool.or_eq_true, Bool.and_eq_true, decide_eq_true_eq] at h
    have g1 : (c.val ≥ 'A'.val) ↔ 65 ≤ c.toNat := Iff.rfl
    have g3 : (c.val ≥ 'a'.val) ↔ 97 ≤ c.toNat := Iff.rfl
    have g5 : (c.val ≥ '0'.val) ↔ 48 ≤ c.toNat := Iff.rfl
    rw [g1, g3, g5] at h
    simp; omega
  alpha_ascii _ _ := rfl
  digit_ascii _ _ := rfl
  alnum_ascii _ _ := rfl
  decimal_ascii _ _ := rfl
  space_ascii _ _ := rfl
  word_ascii _ _ := rfl
  lower_ascii _ _ := rfl

namespace PyStr

/-- `s.replace(c, c + c)` for a character. -/
def double (c : Char) (s : Str) : Str := s.flatMap fun x => if x = c then [c, c] else [x]

/-- `s.replace(c + c, c)` for a character. -/
def undouble (c : Char) : Str → Str
  | [] => []
  | [x] => [x]
  | x :: y :: s => if x = c ∧ y = c then c :: undouble c s else x :: undouble c (y :: s)

/-- `s.find(c, start)`, -1 as `none`. -/
def find (c : Char) (s : Str) (start : Nat) : Option Nat := ((s.drop start).findIdx? (· = c)).map (· + start)

/-- `s.find(c, start, stop)`. -/
def findIn (c : Char) (s : Str) (start stop : Nat) : Option Nat := (((s.take stop).drop start).findIdx? (· = c)).map (· + start)

/-- The first item of a list, with a character put before it. -/
def consHead (c : Char) : List Str → List Str
  | [] => [[c]]
  | h :: t => (c :: h) :: t

/-- `s.split(sep)`. -/
def split (sep : Char) : Str → List Str
  | [] => [[]]
  | c :: s => if c = sep then [] :: split sep s else consHead c (split sep s)

/-- `s.split(sep, n)`. -/
def splitMax (sep : Char) : Nat → Str → List Str
  | _, [] => [[]]
  | 0, c :: s => [c :: s]
  | n + 1, c :: s => if c = sep then [] :: splitMax sep n s else consHead c (splitMax sep (n + 1) s)

/-- `sep.join(l)`. -/
def join (sep : Str) : List Str → Str
  | [] => []
  | [x] => x
  | x :: l => x ++ sep ++ join sep l

/-- `s.lstrip()`. -/
def lstrip (U : Unicode) (s : Str) : Str := s.dropWhile U.isSpace

/-- `s.rstrip()`. -/
def rstrip (U : Unicode) (s : Str) : Str := (s.reverse.dropWhile U.isSpace).reverse

/-- `s.strip()`. -/
def strip (U : Unicode) (s : Str) : Str := rstrip U (lstrip U s)

end PyStr
end PG
