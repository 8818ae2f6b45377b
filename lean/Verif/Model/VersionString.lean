import Verif.Model.PyInt
import Verif.Model.PyStr
/-!
# postgresql/versionstring.py

Text beyond ASCII is taken as neither digits nor white space (as in `PyInt`). `xml` and `sh`, which only print the tuple, are not modelled.
-/
namespace PG.VersionString
open PG

/-- An item of a version tuple: a Python `int`, `str` or `None`. -/
inductive Item where
  | int (n : Int)
  | text (s : Str)
  | none
  deriving DecidableEq, Repr

/-- A character of `'0123456789'` (versionstring.py:19). -/
def digit (c : Char) : Bool := '0' ≤ c ∧ c ≤ '9'

/-- `s.strip('0123456789')` (versionstring.py:19). -/
def stripDigits (s : Str) : Str := ((s.dropWhile digit).reverse.dropWhile digit).reverse

/-- The pieces of `s.split(sep)` for a separator of any length; `acc` is the piece being read, `skip` what remains of a separator just met.
Python scans from the left, and goes on after a separator found (versionstring.py:21). -/
def splitStr (sep : Str) (acc : Str) : Nat → Str → List Str
  | _, [] => [acc]
  | k + 1, _ :: s => splitStr sep acc k s
  | 0, c :: s => if sep.isPrefixOf (c :: s) then acc :: splitStr sep [] (sep.length - 1) s else splitStr sep (acc ++ [c]) 0 s

/-- `int(x or '0')` (versionstring.py:26, 34). -/
def number (x : Str) : Except Err Item := (PyInt.pyInt 10 (if x = [] then ['0'] else x)).map .int

/-- `[int(x or '0') for x in l]` (versionstring.py:26, 34). -/
def numbers : List Str → Except Err (List Item)
  | [] => .ok []
  | x :: l => match number x with
    | .error e => .error e
    | .ok i => match numbers l with
      | .error e => .error e
      | .ok is => .ok (i :: is)

/-- The state level: `None` for an empty text, its number otherwise (versionstring.py:22-25). -/
def levelOf (s : Str) : Except Err Item := if s = [] then .ok .none else (PyInt.pyInt 10 s).map .int

/-- The rest of `split`, for the components but the last, and the last one (versionstring.py:19-37). A list `v` with no items cannot come from `str.split`. -/
def splitLast (front : List Str) (last : Str) : Except Err (List Item) :=
  let cls := stripDigits last
  if cls ≠ [] then
    match splitStr cls [] 0 last with
    | [lastVersion, level] =>
      match levelOf level with
      | .error e => .error e
      | .ok lv =>
        match numbers front with
        | .error e => .error e
        | .ok vl =>
          match (if lastVersion = [] then .ok [] else (PyInt.pyInt 10 lastVersion).map fun n => [Item.int n]) with
          | .error e => .error e
          | .ok l =>
            let vl := vl ++ l
            .ok (vl ++ List.replicate (3 - vl.length) .none ++ [.text cls, lv])
    | _ => .error .valueError
  else
    match numbers (front ++ [last]) with
    | .error e => .error e
    | .ok vl => .ok (vl ++ List.replicate (5 - vl.length) .none)

/-- `split(vstr)` (versionstring.py:11-37). -/
def split (vstr : Str) : Except Err (List Item) :=
  let v := PyStr.split '.' (TypesLib.strip vstr)
  splitLast v.dropLast (v.getLastD [])

/-- `str(x)` of an item. -/
def pyStr : Item → Str
  | .int n => if n < 0 then '-' :: Nat.toDigits 10 n.natAbs else Nat.toDigits 10 n.natAbs
  | .text s => s
  | .none => "None".toList

/-- The `vtup[:-2]` and `vtup[-2:]` of a tuple; the second must have two items to be unpacked (versionstring.py:43-44). -/
def parts (t : List Item) : Except Err (List Item × Item × Item) :=
  match t.reverse with
  | b :: a :: r => .ok (r.reverse, a, b)
  | _ => .error .valueError

/-- `unsplit(vtup)` (versionstring.py:39-45): adding a number to a text raises `TypeError`. -/
def unsplit (t : List Item) : Except Err Str :=
  match parts t with
  | .error e => .error e
  | .ok (head, cls, lv) =>
    let front := PyStr.join ['.'] ((head.filter (· ≠ .none)).map pyStr)
    match cls with
    | .none => .ok front
    | .text s => .ok (front ++ (s ++ pyStr lv))
    | .int _ => .error .typeError

/-- `x if x is not None else 0` (versionstring.py:53). -/
def orZero : Item → Item
  | .none => .int 0
  | i => i

/-- The truth of an item. -/
def truth : Item → Bool
  | .int n => n ≠ 0
  | .text s => s ≠ []
  | .none => false

/-- `normalize(split_version)` (versionstring.py:47-54). -/
def normalize (t : List Item) : Except Err (List Item) :=
  match parts t with
  | .error e => .error e
  | .ok (head, cls, lv) => .ok (head.map orZero ++ [if truth cls then cls else .text "final".toList, if truth lv then lv else .int 0])

end PG.VersionString
