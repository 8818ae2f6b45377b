import Verif.Model.Convert
/-!
# Specification of C77: which value it was that could not be converted, and what an exception says

`Fault verb repr c a p e`: converting `a`, the first thing that fails is at the path `p`, positions of attributes in records inside records, and its own exception is `e`.
Elements of arrays do not count in the path.
-/
namespace PG.Spec.Convert
open PG PG.Exceptions PG.Messages PG.Convert

variable {A B : Type}

/-- Everything in front of item `i` is converted. -/
def Before (verb : Str) (repr : A → Str) (cs : List (Conv A B)) (xs : List (Option A)) (i : Nat) : Prop :=
  ∀ j < i, ∀ c x, cs[j]? = some c → xs[j]? = some (some x) → ∃ y, run verb repr c x = .ok y

/-- Every item is converted, item `i` by `f i`, and `None` is left as it is: the result. -/
def Converted (f : Nat → A → Except Exn B) (xs : List (Option A)) (ys : List (Option B)) : Prop :=
  ys.length = xs.length ∧ ∀ i x, xs[i]? = some x → (x = none ∧ ys[i]? = some none) ∨ ∃ a b, x = some a ∧ f i a = .ok b ∧ ys[i]? = some (some b)

/-- The routine of field `i`. -/
def attrOf (verb : Str) (repr : A → Str) (cs : List (Conv A B)) (i : Nat) (x : A) : Except Exn B :=
  match cs[i]? with
  | some c => run verb repr c x
  | none => .error (.py .indexError)

/-- Where and with what converting fails first. -/
inductive Fault (verb : Str) (repr : A → Str) : Conv A B → A → List Nat → Err → Prop where
  /-- the routine raises -/
  | base {f a e} (h : f a = .error e) : Fault verb repr (.base f) a [] e
  /-- it is not an array -/
  | notArray {split el a e} (h : split a = .error e) : Fault verb repr (.each split el) a [] e
  /-- an element -/
  | element {split el a join pre x post p e} (h : split a = .ok (pre ++ some x :: post, join)) (hpre : ∀ y, some y ∈ pre → ∃ b, run verb repr el y = .ok b) (hx : Fault verb repr el x p e) :
      Fault verb repr (.each split el) a p e
  /-- the elements are converted, but they do not make an array -/
  | whole {split el a xs join ys e} (h : split a = .ok (xs, join)) (hall : Converted (fun _ => run verb repr el) xs ys) (hj : join ys = .error e) : Fault verb repr (.each split el) a [] e
  /-- it is not a record -/
  | notRecord {n split cs a e} (h : split a = .error e) : Fault verb repr (.record n split cs) a [] e
  /-- it has another number of items -/
  | count {n split cs a xs join} (h : split a = .ok (xs, join)) (hl : xs.length ≠ cs.length) : Fault verb repr (.record n split cs) a [] .typeError
  /-- an item -/
  | item {n split cs a xs join i c x p e} (h : split a = .ok (xs, join)) (hl : xs.length = cs.length) (hc : cs[i]? = some c) (hi : xs[i]? = some (some x))
      (hb : Before verb repr cs xs i) (hx : Fault verb repr c x p e) : Fault verb repr (.record n split cs) a (i :: p) e
  /-- the items are converted, but they do not make a record -/
  | made {n split cs a xs join ys e} (h : split a = .ok (xs, join)) (hl : xs.length = cs.length) (hy : Converted (attrOf verb repr cs) xs ys) (hj : join ys = .error e) :
      Fault verb repr (.record n split cs) a [] e

/-- Following `__cause__`: the positions in the details, from the outermost on; and the innermost exception. -/
def positions : Exn → List (Option Str)
  | .py _ => []
  | .client o _ c => PyDict.get .position o.details :: positions c
def root : Exn → Err
  | .py e => e
  | .client _ _ c => root c
/-- All of the exceptions have a class. -/
def AllOf (k : Cls) : Exn → Prop
  | .py _ => True
  | .client o _ c => o.cls = some k ∧ AllOf k c

/-- The positions of a path, as text. -/
def texts (p : List Nat) : List (Option Str) := p.map fun i => some (Nat.toDigits 10 i)

end PG.Spec.Convert
