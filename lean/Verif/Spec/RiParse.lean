import Verif.Model.Py
/-!
# The parts of a resource identifier

`[scheme://][net location][/path][?query][#fragment]`: the net location ends at the first `/`, `?` or `#`, the path at the first `?` or `#`,
the query at the first `#`.
-/
namespace PG.Spec.RiParse
open PG

/-- A marker and what follows it, if anything. -/
def marked (m : Str) : Option Str → Str
  | none => []
  | some x => m ++ x

/-- A scheme and what follows it, if anything. -/
def leading : Option Str → Str
  | none => []
  | some x => x ++ "://".toList

/-- A part of the text that is not there if empty. -/
def present (x : Str) : Option Str := if x = [] then none else some x

/-- `Parts s scheme netloc path query fragment`: how the text is divided. -/
structure Parts (s : Str) (scheme netloc path query fragment : Option Str) : Prop where
  whole : s = leading scheme ++ netloc.getD [] ++ marked ['/'] path ++ marked ['?'] query ++ marked ['#'] fragment
  scheme_chars : ∀ x, scheme = some x → ∀ c ∈ x, c.isAlphanum = true ∨ c = '-' ∨ c = '.' ∨ c = '+'
  no_scheme : scheme = none → ∀ x r, s = x ++ "://".toList ++ r → ∃ c ∈ x, ¬ (c.isAlphanum = true ∨ c = '-' ∨ c = '.' ∨ c = '+')
  netloc_present : netloc ≠ some []
  netloc_chars : ∀ x, netloc = some x → '/' ∉ x ∧ '?' ∉ x ∧ '#' ∉ x
  path_chars : ∀ x, path = some x → '?' ∉ x ∧ '#' ∉ x
  query_chars : ∀ x, query = some x → '#' ∉ x

/-- A hexadecimal digit of either case and its value. -/
def HexDigit (c : Char) (n : Nat) : Prop := "0123456789ABCDEF".toList[n]? = some c ∨ "0123456789abcdef".toList[n]? = some c

/-- `Decodes s t`: `t` is the text written as `s` with percent escapes; a percent sign that begins no escape stands for itself. -/
inductive Decodes : Str → Str → Prop
  | nil : Decodes [] []
  | plain {c s t} : c ≠ '%' → Decodes s t → Decodes (c :: s) (c :: t)
  | escape {a b s t x y} : HexDigit a x → HexDigit b y → Decodes s t → Decodes ('%' :: a :: b :: s) (Char.ofNat (16 * x + y) :: t)
  | bare {s t} : (∀ a b r x y, s = a :: b :: r → HexDigit a x → ¬ HexDigit b y) → Decodes s t → Decodes ('%' :: s) ('%' :: t)

end PG.Spec.RiParse
