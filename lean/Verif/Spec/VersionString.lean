import Verif.Model.VersionString
/-! # PostgreSQL version strings, and the tuples the documentation promises -/
namespace PG.Spec.VersionString
open PG PG.VersionString

/-- A version: its numbers, and for a version before the release the state (`beta`, `rc`, `devel`, ...) with its level, if it has one. -/
structure Version where
  major : Nat
  rest : List Nat := []
  state : Option (Str × Option Nat) := none
  deriving DecidableEq

def Version.nums (v : Version) : List Nat := v.major :: v.rest

/-- A digit. -/
def isDigit (c : Char) : Prop := c ∈ "0123456789".toList

/-- A state's name: not empty, without a dot, not beginning or ending with a digit; without blanks at the end, when nothing follows. -/
structure StateOk (s : Str) (level : Option Nat) : Prop where
  first : ∃ c r, s = c :: r ∧ ¬ isDigit c
  last : ∃ r c, s = r ++ [c] ∧ ¬ isDigit c ∧ (level = none → TypesLib.isSpace c = false)
  nodot : '.' ∉ s

def Version.Ok (v : Version) : Prop := ∀ s l, v.state = some (s, l) → StateOk s l

/-- A number in decimal. -/
def decimal (n : Nat) : Str := Nat.toDigits 10 n

/-- The version as PostgreSQL writes it: `8.0.1`, `9.5beta2`, `10devel`. -/
def Version.text (v : Version) : Str :=
  decimal v.major ++ v.rest.flatMap (fun n => '.' :: decimal n) ++
    (match v.state with
    | none => []
    | some (s, none) => s
    | some (s, some n) => s ++ decimal n)

/-- The number at a place of a version, `None` if it has none there. -/
def numberAt (l : List Nat) (k : Nat) : Item :=
  match l[k]? with
  | some n => .int n
  | none => .none

/-- The tuple of the documentation: `(major, minor, patch, ..., state_class, state_level)`, with `None` for what is missing. -/
def Version.tuple (v : Version) : List Item :=
  [numberAt v.nums 0, numberAt v.nums 1, numberAt v.nums 2] ++ (v.nums.drop 3).map (fun (n : Nat) => Item.int n) ++
    (match v.state with
    | none => [.none, .none]
    | some (s, none) => [.text s, .none]
    | some (s, some n) => [.text s, .int n])

/-- The normalized tuple: `0` for missing numbers, `final` for no state. -/
def Version.normal (v : Version) : List Item :=
  [.int (v.nums.getD 0 0), .int (v.nums.getD 1 0), .int (v.nums.getD 2 0)] ++ (v.nums.drop 3).map (fun (n : Nat) => Item.int n) ++
    (match v.state with
    | none => [.text "final".toList, .int 0]
    | some (s, l) => [.text s, .int (l.getD 0)])

end PG.Spec.VersionString
