import Verif.Model.Installation
import Verif.Model.PyDict
/-!
# Texts of elements and errors: postgresql/python/element.py, python/string.py, sys.py, message.py

Objects are numbers, the references of a heap; `os.linesep` is `\n`.  Simplified: an object is in `coverage` if it is the same object (elements have no other equality; a set of elements is never in it).
-/
namespace PG.ElementText
open PG PG.PyStr PG.Installation

/-- Exceptions: `RecursiveFactor`; the interpreter's stack is used up (`RecursionError`); an attribute is missing; what `str()` or `_e_metas` raised. -/
inductive Ex where
  | recursiveFactor
  | recursionError
  | attributeError
  | other
  deriving DecidableEq, Repr

/-- An object: None; one that is not an element, with what `str()` does; an element: its label, its metas (with `str()` of the values), the names of its factors with what the attributes are, `none` if there is no such attribute; an `ElementSet`. -/
inductive Obj where
  | none
  | plain (str : Except Ex Str)
  | element (label : Str) (metas : Except Ex (List (Option Str × Str))) (factors : List (Str × Option Nat))
  | set (members : List Nat)

/-- python/string.py:6-11 `indent`. -/
def indent (U : Unicode) (s : Str) : Str := (lines s).flatMap fun x => rstrip U (' ' :: ' ' :: x) ++ ['\n']

/-- element.py:160, 181, 211: `len(sval) > 70 or os.linesep in sval`. -/
def isLong (s : Str) : Bool := decide (s.length > 70) || s.contains '\n'

/-- element.py:150-171: one of the metas. -/
def metaText (U : Unicode) : Option Str × Str → Str
  | (some k, v) => k ++ ':' :: (if isLong v then '\n' :: rstrip U (indent U v) else ' ' :: rstrip U v)
  | (none, v) => rstrip U v

/-- element.py:178-185: one of the other factors (and 206-214, a prime factor without a label). -/
def factorText (U : Unicode) (att sval : Str) : Str := att ++ ':' :: (if isLong sval then '\n' :: indent U sval else ' ' :: sval)

/-- element.py:187-200: the element's own text. -/
def ownText (U : Unicode) (label : Str) (metas : List (Option Str × Str)) (factors : List (Str × Str)) : Str :=
  let mtxt := join ['\n'] (metas.map (metaText U))
  let ftxt := join ['\n'] (factors.map fun f => factorText U f.1 f.2)
  let mtxt := if mtxt = [] then mtxt else indent U mtxt
  let ftxt := if ftxt = [] then ftxt else indent U ftxt
  let s := mtxt ++ ftxt
  let s := if metas.any fun m => m.1.isNone then ' ' :: lstrip U s else '\n' :: s
  label ++ ':' :: rstrip U s

/-- A loop that may raise. -/
def each {α β : Type} (f : α → Except Ex β) : List α → Except Ex (List β)
  | [] => .ok []
  | x :: xs => match f x with
    | .error e => .error e
    | .ok y => match each f xs with
      | .error e => .error e
      | .ok ys => .ok (y :: ys)

/-- element.py:90. -/
def setLabel : Str := "SET".toList

/-- element.py:97-101: the metas of a set, with the texts of its members. -/
def setMetas (texts : List Str) : List (Option Str × Str) := (none, Nat.toDigits 10 texts.length) :: texts.flatMap fun t => [(none, "--".toList), (none, t)]

/-- element.py:173-185: the text of a factor that is not the prime factor; `rec` formats. -/
def factorOf (rec : Nat → Except Ex Str) (f : Str × Option Nat) : Except Ex (Str × Str) :=
  match f.2 with
  | none => .error .attributeError
  | some i => match rec i with
    | .error e => .error e
    | .ok t => .ok (f.1, t)

/-- element.py:203: the object has `_e_label`, so it is an element or a set. -/
def labelled (heap : List Obj) (i : Nat) : Bool :=
  match heap[i]? with
  | some (.element ..) => true
  | some (.set _) => true
  | _ => false

/-- element.py:103-109, 202-214: the prime factor and its text. -/
def primeText (U : Unicode) (heap : List Obj) (rec : Nat → Except Ex Str) (own : Str) : List (Str × Option Nat) → Except Ex Str
  | [] => .ok own
  | (name, none) :: _ => .ok (own ++ '\n' :: factorText U name "None".toList)
  | (name, some i) :: _ => match rec i with
    | .error e => .error e
    | .ok t => .ok (own ++ '\n' :: (if labelled heap i then t else factorText U name t))

/-- element.py:132-215 `format_element`; `depth` is the room on the interpreter's stack. -/
def format (U : Unicode) (heap : List Obj) : Nat → List Nat → Nat → Except Ex Str
  | 0, _, _ => .error .recursionError
  | depth + 1, coverage, i =>
    if coverage.contains i then .error .recursiveFactor
    else match heap[i]? with
      | none => .ok "None".toList
      | some .none => .ok "None".toList
      | some (.plain s) => s
      | some (.element label metas factors) =>
        match metas with
        | .error e => .error e
        | .ok metas =>
          match each (factorOf (format U heap depth (coverage ++ [i]))) (factors.drop 1) with
          | .error e => .error e
          | .ok fs => primeText U heap (format U heap depth (coverage ++ [i])) (ownText U label metas fs) factors
      | some (.set members) =>
        match each (format U heap depth []) members with
        | .error e => .error e
        | .ok texts => .ok (ownText U setLabel (setMetas texts) [])

/-- sys.py:31-53 `default_errformat`: the error's message and its other metas, and the object that made it; `trace` is the text of the exception that formatting raised. -/
def errformat (U : Unicode) (heap : List Obj) (depth : Nat) (trace : Ex → Str) (message : Str) (metas : List (Str × Str)) (creator : Option Nat) : Str :=
  message ++ "\n  ".toList ++ join "\n  ".toList (metas.map fun m => m.1 ++ ": ".toList ++ m.2) ++
    match creator with
    | none => []
    | some i => match format U heap depth [] i with
      | .ok t => '\n' :: t
      | .error e => '\n' :: rstrip U (indent U (trace e))

/-- Python's order of strings. -/
def leStr : Str → Str → Bool
  | [], _ => true
  | _ :: _, [] => false
  | a :: s, b :: t => if a = b then leStr s t else a.toNat < b.toNat

/-- One step of `sorted`: in front of the first that is not smaller. -/
def insertBy (x : Str × Str) : List (Str × Str) → List (Str × Str)
  | [] => [x]
  | y :: l => if leStr x.1 y.1 then x :: y :: l else y :: insertBy x l

/-- `sorted(d.items(), key = get0)`. -/
def sortItems : List (Str × Str) → List (Str × Str)
  | [] => []
  | x :: l => insertBy x (sortItems l)

/-- message.py:121. -/
def standard : List Str := ["message".toList, "severity".toList, "file".toList, "function".toList, "line".toList]

/-- message.py:105-118 `location_string`; `repr` is that of `str`. -/
def locationString (repr : Str → Str) (details : List (Str × Str)) : Str :=
  let get k := (PyDict.get k details).getD ['?']
  let file := get "file".toList
  let line := get "line".toList
  let function := get "function".toList
  if file = ['?'] ∧ line = ['?'] ∧ function = ['?'] then []
  else "File ".toList ++ repr file ++ ", line ".toList ++ line ++ ", in ".toList ++ function

/-- message.py:19-30 `_e_metas`, after the message; `upper` is `str.upper`, the details are texts. -/
def messageMetas (upper repr : Str → Str) (code source : Str) (details : List (Str × Str)) : List (Str × Str) :=
  (if code ≠ [] ∧ code ≠ "00000".toList then [("CODE".toList, code)] else []) ++
  ("LOCATION".toList, if locationString repr details ≠ [] then locationString repr details ++ " from ".toList ++ source else source) ::
  ((sortItems details).filter fun d => !standard.contains d.1).map fun d => (upper d.1, d.2)

end PG.ElementText
