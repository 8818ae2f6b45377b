import Verif.Model.PgArray
/-!
# Model of comparing, iterating and copying `Array` objects

`postgresql/types/__init__.py` 385-409, 487-510, 549-554, with Python's comparison of lists. How atoms compare is a parameter. That a list skips `==` for identical
members is not modelled.
-/
namespace PG.PgArray
open PG
variable {α : Type}

/-- The objects that are compared. -/
inductive Obj (α : Type) where
  | atom (a : α)
  | list (l : List (Obj α))
  | tuple (l : List (Obj α))
  | array (a : Arr α)

/-- The elements of an array, as objects. -/
def Obj.ofV : V α → Obj α
  | .atom a => .atom a
  | .list l => .list (l.map Obj.ofV)
  | .tuple l => .tuple (l.map Obj.ofV)

/-- The comparisons. -/
inductive Cmp where
  | eq | ne | lt | le | gt | ge
  deriving DecidableEq, Repr

/-- The reflected method: `y op' x` for `x op y`. -/
def Cmp.swap : Cmp → Cmp
  | .eq => .eq
  | .ne => .ne
  | .lt => .gt
  | .le => .ge
  | .gt => .lt
  | .ge => .le

/-- What it says of numbers. -/
def Cmp.nat : Cmp → Nat → Nat → Bool
  | .eq, m, n => m = n
  | .ne, m, n => m ≠ n
  | .lt, m, n => m < n
  | .le, m, n => m ≤ n
  | .gt, m, n => m > n
  | .ge, m, n => m ≥ n

/-- Neither object knows the other: `==` and `!=` compare identities, the others raise. -/
def Cmp.foreign : Cmp → Except Err Bool
  | .eq => .ok false
  | .ne => .ok true
  | _ => .error .typeError

/-- types/__init__.py:549-554 `__iter__`, as `list(self)`. -/
def listOf (a : Arr α) : Except Err (List (Obj α)) :=
  if a.dims.length < 2 then .ok (a.elements.map Obj.ofV)
  else mapE (fun (x : Nat) => (subArray a x).map Obj.array) (List.range (len a))

/-- From the first members that differ (CPython's `list_richcompare`): `==` decides which these are, then the comparison is applied to them; if there are none, to the lengths `m` and `n`. -/
def listLoop (cmp : Cmp → Obj α → Obj α → Except Err Bool) (op : Cmp) (m n : Nat) : List (Obj α) → List (Obj α) → Except Err Bool
  | x :: l, y :: r => match cmp .eq x y with
    | .error e => .error e
    | .ok true => listLoop cmp op m n l r
    | .ok false => match op with
      | .eq => .ok false
      | .ne => .ok true
      | op => cmp op x y
  | _, _ => .ok (op.nat m n)

/-- CPython's `list_richcompare`: lists of different lengths are not equal, without a look at the members. -/
def listCmp (cmp : Cmp → Obj α → Obj α → Except Err Bool) (op : Cmp) (l r : List (Obj α)) : Except Err Bool :=
  if l.length ≠ r.length ∧ (op = .eq ∨ op = .ne) then .ok (op = .ne) else listLoop cmp op l.length r.length l r

/-- CPython's `tuple_richcompare`: without that. -/
def tupleCmp (cmp : Cmp → Obj α → Obj α → Except Err Bool) (op : Cmp) (l r : List (Obj α)) : Except Err Bool := listLoop cmp op l.length r.length l r

/-- Objects without arrays. -/
def plainCmp (atoms : Cmp → α → α → Except Err Bool) (cmp : Cmp → Obj α → Obj α → Except Err Bool) (op : Cmp) : Obj α → Obj α → Except Err Bool
  | .atom a, .atom b => atoms op a b
  | .list l, .list r => listCmp cmp op l r
  | .tuple l, .tuple r => tupleCmp cmp op l r
  | _, _ => op.foreign

/-- `list(self)` for an array. -/
def unarray : Obj α → Except Err (Obj α)
  | .array a => (listOf a).map Obj.list
  | x => .ok x

/-- types/__init__.py:490-508 `__eq__`, `__ne__`, `__gt__`, `__lt__`, `__le__`, `__ge__`, and how they are reached: an array on the left makes a list of itself and is compared as that; what is on the left does not know the array on the
right, whose reflected method makes a list of it. The number is the room on the interpreter's stack. -/
def compare (atoms : Cmp → α → α → Except Err Bool) : Nat → Cmp → Obj α → Obj α → Except Err Bool
  | 0, _, _, _ => .error .nonTermination
  | k + 1, op, x, y => match unarray x with
    | .error e => .error e
    | .ok x' => match y with
      | .array b => match listOf b with
        | .error e => .error e
        | .ok r => plainCmp atoms (compare atoms k) op.swap (.list r) x'
      | y => plainCmp atoms (compare atoms k) op x' y

/-- types/__init__.py:402-403 `__getnewargs__`, as `copy` and `pickle` use it: a new object is made with `Array(self.nest())`, then it gets the attributes of the old one. -/
def copied (a : Arr α) : Except Err (Arr α) := do
  let v ← nest a.dims.length a
  match v with
  | .list l => do
    let _ ← fromNest l
    return a
  | _ => .error .typeError

end PG.PgArray
