import Verif.Model.TypesLib
/-!
# Python's `int(s, base)` for ASCII text (characters beyond ASCII are taken as neither digits nor white space)
-/
namespace PG.PyInt
open PG PG.TypesLib

/-- The value of a digit in bases up to 36. -/
def digitVal (c : Char) : Option Nat :=
  if '0' ≤ c ∧ c ≤ '9' then some (c.toNat - 48)
  else if 'a' ≤ c ∧ c ≤ 'z' then some (c.toNat - 87)
  else if 'A' ≤ c ∧ c ≤ 'Z' then some (c.toNat - 55)
  else none

/-- A digit of a base. -/
def baseDigit (base : Nat) (c : Char) : Option Nat :=
  match digitVal c with
  | some d => if d < base then some d else none
  | none => none

/-- The digits after the first; single underscores may stand between digits. -/
def scan (base acc : Nat) : Str → Option Nat
  | [] => some acc
  | '_' :: c :: r => match baseDigit base c with
    | some d => scan base (acc * base + d) r
    | none => none
  | c :: r => match baseDigit base c with
    | some d => scan base (acc * base + d) r
    | none => none

/-- `0x`, `0o`, `0b` in front, if the base is theirs; an underscore may follow. -/
def dropPrefix (base : Nat) : Str → Str
  | '0' :: p :: r =>
    if (base = 16 ∧ (p = 'x' ∨ p = 'X')) ∨ (base = 8 ∧ (p = 'o' ∨ p = 'O')) ∨ (base = 2 ∧ (p = 'b' ∨ p = 'B')) then
      match r with
      | '_' :: q => q
      | q => q
    else '0' :: p :: r
  | s => s

/-- A number without sign. -/
def unsigned (base : Nat) (s : Str) : Option Nat :=
  match dropPrefix base s with
  | [] => none
  | c :: r => match baseDigit base c with
    | some d => scan base d r
    | none => none

/-- `int(s, base)`. -/
def pyInt (base : Nat) (s : Str) : Except Err Int :=
  match strip s with
  | '-' :: r => match unsigned base r with
    | some n => .ok (-(n : Int))
    | none => .error .valueError
  | '+' :: r => match unsigned base r with
    | some n => .ok n
    | none => .error .valueError
  | r => match unsigned base r with
    | some n => .ok n
    | none => .error .valueError

end PG.PyInt
