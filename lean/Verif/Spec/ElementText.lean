import Verif.Model.ElementText
/-!
# Specification of C81: the text of an element

What a text shows: its lines, without blanks at their ends, without blank lines.
-/
namespace PG.Spec.ElementText
open PG PG.PyStr PG.Installation PG.ElementText

def Shown (U : Unicode) (s : Str) : List Str := ((lines s).map (rstrip U)).filter (· ≠ [])

/-- Two blanks in front. -/
def inner (ls : List Str) : List Str := ls.map fun l => ' ' :: ' ' :: l

/-- Something with a name: on the same line, or below it and indented, if it is long or has more than one line. -/
def named (U : Unicode) (name text : Str) : List Str :=
  if text.length > 70 ∨ '\n' ∈ text then Shown U (name ++ [':']) ++ inner (Shown U text) else Shown U (name ++ ": ".toList ++ text)

/-- The details of an element: with a name, or without. -/
def detail (U : Unicode) : Option Str × Str → List Str
  | (some k, v) => named U k v
  | (none, v) => Shown U v

/-- An element: its label, and indented its details and its factors; if there is a detail without a name, the first line follows the label. -/
def own (U : Unicode) (label : Str) (metas : List (Option Str × Str)) (factors : List (Str × Str)) : List Str :=
  let body := inner (metas.flatMap (detail U) ++ factors.flatMap fun f => named U f.1 f.2)
  if ∃ m ∈ metas, m.1 = none then
    match body with
    | [] => Shown U (label ++ [':'])
    | x :: xs => Shown U (label ++ ": ".toList ++ lstrip U x) ++ xs
  else Shown U (label ++ [':']) ++ body

variable (U : Unicode) (heap : List Obj)

/-- Elements and sets have a label of their own. -/
def OwnLabel (j : Nat) : Prop := (∃ label metas factors, heap[j]? = some (.element label metas factors)) ∨ ∃ members, heap[j]? = some (.set members)

open Classical in
/-- What comes below an element: the prime factor, with its name if it has no label of its own; `sub` are the texts of the factors. -/
noncomputable def below (sub : Nat → Str) : List (Str × Option Nat) → List Str
  | [] => []
  | (name, none) :: _ => named U name "None".toList
  | (name, some j) :: _ => if OwnLabel heap j then Shown U (sub j) else named U name (sub j)

/-- The other factors. -/
def others (sub : Nat → Str) (factors : List (Str × Option Nat)) : List (Str × Str) := (factors.drop 1).filterMap fun f => f.2.map fun j => (f.1, sub j)

/-- `text` is a text of the object: `str()` of what is not an element; of an element its own lines, and after them the text of the prime factor.  The texts of its other factors are among its own lines; those of the members of a set are its details.  `sub` are the texts of these other objects. -/
inductive Describes : Nat → Str → Prop where
  | nothing {i} : heap[i]? = none → Describes i "None".toList
  | none {i} : heap[i]? = some .none → Describes i "None".toList
  | plain {i s} : heap[i]? = some (.plain (.ok s)) → Describes i s
  | element {i label metas factors text} (sub : Nat → Str) (h : heap[i]? = some (.element label (.ok metas) factors))
      (hf : ∀ name j, (name, some j) ∈ factors → Describes j (sub j))
      (hp : ∀ name, (name, Option.none) ∉ factors.drop 1)
      (ht : Shown U text = own U label metas (others sub factors) ++ below U heap sub factors) : Describes i text
  | set {i members text} (sub : Nat → Str) (h : heap[i]? = some (.set members))
      (hm : ∀ j ∈ members, Describes j (sub j))
      (ht : Shown U text = own U "SET".toList ((Option.none, Nat.toDigits 10 members.length) :: members.flatMap fun j => [(Option.none, "--".toList), (Option.none, sub j)]) []) : Describes i text

/-- `j` is a factor of `i`. -/
def Factor (i j : Nat) : Prop := ∃ label metas factors name, heap[i]? = some (.element label metas factors) ∧ (name, some j) ∈ factors

/-- In some steps, one or more. -/
inductive Reaches : Nat → Nat → Prop where
  | one {i j} : Factor heap i j → Reaches i j
  | more {i j k} : Factor heap i j → Reaches j k → Reaches i k

/-- An object that is composed of itself is reached, or is `i`. -/
def Recursive (i : Nat) : Prop := ∃ j, (i = j ∨ Reaches heap i j) ∧ Reaches heap j j

/-- The order of texts: one begins with the other, or the first characters in which they differ decide. -/
def Before (s t : Str) : Prop := (∃ r, t = s ++ r) ∨ ∃ p a s' b t', s = p ++ a :: s' ∧ t = p ++ b :: t' ∧ a.toNat < b.toNat

/-- The details that have no place of their own. -/
def Other (d : Str × Str) : Prop := d.1 ∉ ["message".toList, "severity".toList, "file".toList, "function".toList, "line".toList]

/-- A detail, or a question mark. -/
def field (details : List (Str × Str)) (name : Str) : Str := ((details.find? fun d => d.1 = name).map Prod.snd).getD ['?']

/-- Where the message comes from: the place in the server's source, as far as it is known, and the source. -/
def location (repr : Str → Str) (source : Str) (details : List (Str × Str)) : Str :=
  if field details "file".toList = ['?'] ∧ field details "line".toList = ['?'] ∧ field details "function".toList = ['?'] then source
  else "File ".toList ++ repr (field details "file".toList) ++ ", line ".toList ++ field details "line".toList ++ ", in ".toList ++ field details "function".toList ++ " from ".toList ++ source

/-- The lines of an error: its message, and indented its details, each with its name; then what comes after. -/
def report (message : Str) (details : List (Str × Str)) (after : List Str) : List Str :=
  Shown U message ++ details.flatMap (fun d => Shown U ("  ".toList ++ d.1 ++ ": ".toList ++ d.2)) ++ after

end PG.Spec.ElementText
