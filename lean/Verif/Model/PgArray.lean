import Verif.Model.TypesLib
/-!
# Model of `postgresql/types/__init__.py`: `Array`, and of the array part of `TypeIO` in `postgresql/driver/pq3.py`
-/
namespace PG.PgArray
open PG PG.TypesLib

/-- The objects arrays are built from: lists, other sequences (tuples, strings: things with a length that are not lists) and the rest. -/
inductive V (α : Type) where
  | atom (a : α)
  | list (l : List (V α))
  | tuple (l : List (V α))

/-- An `Array` instance (types/__init__.py:366-372). -/
structure Arr (α : Type) where
  elements : List (V α)
  lower : List Int
  upper : List Int
  dims : List Nat

variable {α : Type}

/-- types/__init__.py:276-284: the dimensions below the first item. -/
def detectRest : V α → Except Err (List Nat)
  | .list [] => .error .valueError
  | .list (x :: l) => do
    let r ← detectRest x
    return (l.length + 1) :: r
  | _ => .ok []

/-- types/__init__.py:268-284 `detect_dimensions`. -/
def detectDimensions : List (V α) → Except Err (List Nat)
  | [] => .ok []
  | x :: l => do
    let r ← detectRest x
    return (l.length + 1) :: r

/-- What `len(x)` and iteration over `x` see. -/
def items : V α → Except Err (List (V α))
  | .atom _ => .error .typeError
  | .list l => .ok l
  | .tuple l => .ok l

/-- types/__init__.py:261-263: the loop of `unroll_nest` with `f` for the recursion. -/
def extendAll (f : List (V α) → Except Err (List (V α))) : List (V α) → Except Err (List (V α))
  | [] => .ok []
  | x :: l => do
    let i ← items x
    let h ← f i
    let t ← extendAll f l
    return h ++ t

/-- types/__init__.py:248-265 `unroll_nest`; the dimensions from `depth` on. -/
def unrollNest : List Nat → List (V α) → Except Err (List (V α))
  | [], hier => if hier.length ≠ 0 then .error .valueError else .ok []
  | [d], hier => if hier.length ≠ d then .error .valueError else .ok hier
  | d :: e :: ds, hier => if hier.length ≠ d then .error .valueError else extendAll (unrollNest (e :: ds)) hier

/-- types/__init__.py:331-345: the sizes of the dimensions; `none` is the special case for empty arrays. -/
def physical (nelements : Nat) : List (Int × Int) → Except Err (Option (List Nat))
  | [] => .ok (some [])
  | (lb, ub) :: r =>
    if ub - lb + 1 < 1 then (if nelements = 0 then .ok none else .error .valueError)
    else do
      let t ← physical nelements r
      return t.map ((ub - lb + 1).toNat :: ·)

/-- types/__init__.py:310-322: the default for `lowerbounds`. -/
def defaultLower (n : Nat) (lower : Option (List Int)) (upper : Option (List Int)) : List Int :=
  match lower with
  | some l => l
  | none =>
    match upper with
    | some (u :: us) => List.replicate (u :: us).length 1
    | _ => if n = 0 then [] else [1]

/-- types/__init__.py:363-364: the last check. -/
def consistent (a : Arr α) : Except Err (Arr α) := if a.lower.length ≠ a.upper.length then .error .valueError else .ok a

/-- types/__init__.py:286-373 `from_elements`. -/
def fromElements (elements : List (V α)) (lower upper : Option (List Int)) : Except Err (Arr α) :=
  match upper with
  | some [] =>
    if elements.length ≠ 0 then .error .valueError else consistent ⟨elements, defaultLower elements.length lower upper, [], []⟩
  | some u => do
    let p ← physical elements.length ((defaultLower elements.length lower upper).zip u)
    match p with
    | none => if elements.length ≠ 0 then .error .valueError else consistent ⟨elements, [], [], []⟩
    | some dims =>
      if elements.length ≠ dims.prod then .error .valueError else consistent ⟨elements, defaultLower elements.length lower upper, u, dims⟩
  | none =>
    if elements.length = 0 then consistent ⟨elements, defaultLower elements.length lower upper, [], []⟩
    else consistent ⟨elements, defaultLower elements.length lower upper, [(elements.length : Int)], [elements.length]⟩

/-- types/__init__.py:376-383 `from_nest`, which `Array(nest)` (385-399) is for a list. -/
def fromNest (nest : List (V α)) : Except Err (Arr α) := do
  let dims ← detectDimensions nest
  let e ← unrollNest dims nest
  fromElements e none (some (dims.map Int.ofNat))

/-- types/__init__.py:372: the number of elements in one item of the first dimension. -/
def weight (a : Arr α) : Nat :=
  match a.dims with
  | [] => a.elements.length / 1
  | d :: _ => a.elements.length / (if d = 0 then 1 else d)

/-- types/__init__.py:487-488 `__len__`. -/
def len (a : Arr α) : Nat := a.dims.headD 0

/-- types/__init__.py:537-546: `a[item]` for an integer, in two dimensions or more. -/
def subArray (a : Arr α) (item : Int) : Except Err (Arr α) :=
  if item > len a then .error .indexError
  else fromElements (pySlice a.elements (weight a * item) (weight a * (item + 1))) (some a.lower.tail) (some a.upper.tail)

/-- types/__init__.py:518-535: `a[slice]`, in two dimensions or more; `idx` are the indices of the slice. -/
def subSlice (a : Arr α) (idx : List Nat) : Except Err (Arr α) :=
  if idx = [] then fromElements [] none none
  else fromElements (idx.flatMap fun x => slice a.elements (weight a * x) (weight a * (x + 1)))
    (some (1 :: a.lower.tail)) (some ((idx.length : Int) :: a.upper.tail))

/-- Python `l[i]`. -/
def pyGet {β : Type} (l : List β) (i : Int) : Except Err β :=
  let j := if i < 0 then i + l.length else i
  if j < 0 then .error .indexError
  else match l[j.toNat]? with
    | some x => .ok x
    | none => .error .indexError

/-- `[f(x) for x in l]`. -/
def mapE {β γ : Type} (f : β → Except Err γ) : List β → Except Err (List γ)
  | [] => .ok []
  | x :: l => do
    let h ← f x
    let t ← mapE f l
    return h :: t

/-- types/__init__.py:411-426 `nest`; the fuel is the number of dimensions. -/
def nest : Nat → Arr α → Except Err (V α)
  | 0, a => .ok (.list a.elements)
  | fuel + 1, a =>
    if a.dims.length < 2 then .ok (.list a.elements)
    else do
      let l ← mapE (fun (x : Nat) => (subArray a x).bind (nest fuel)) (List.range (len a))
      return .list l

/-- types/__init__.py:455-466: the position of an element. -/
def position : Nat → List Int → List Nat → Except Err Nat
  | _, [], _ => .ok 0
  | _, _, [] => .ok 0
  | n, a :: as, d :: ds =>
    let b := if a < 0 then a + d else a
    if b < 0 ∨ d ≤ b then .error .indexError
    else do
      let r ← position (n / d) as ds
      return b.toNat * (n / d) + r

/-- types/__init__.py:428-467 `get_element`. -/
def getElement (a : Arr α) (address : List Int) : Except Err (V α) :=
  if a.dims = [] then .error .indexError
  else if address.length ≠ a.dims.length then .error .valueError
  else do
    let cur ← position a.elements.length address a.dims
    pyGet a.elements cur

/-- types/__init__.py:469-482 `sql_get_element`; `none` is Python's None. -/
def sqlGetElement (a : Arr α) (address : List Int) : Except Err (Option (V α)) :=
  let b := (address.zip a.lower).map fun x => x.1 - x.2
  if b.any (fun x => x < 0) then .ok none
  else match getElement a b with
    | .ok v => .ok (some v)
    | .error .indexError => .ok none
    | .error e => .error e

/-! ## driver/pq3.py -/

/-- driver/pq3.py:349-357 `array_parts` for an `Array`. -/
def arrayParts (a : Arr α) : List (V α) × List Nat × List Int := (a.elements, a.dims, a.lower)

/-- driver/pq3.py:359-365 `array_from_parts`. -/
def arrayFromParts (elements : List (V α)) (dims lower : List Int) : Except Err (Arr α) :=
  fromElements elements (some lower) (some ((dims.zip lower).map fun x => x.1 + x.2 - 1))

/-- Elements are packed one by one; None stays None. -/
def packElements {β : Type} (pack : V (Option β) → Except Err Bytes) : List (V (Option β)) → Except Err (List (Option Bytes))
  | [] => .ok []
  | .atom none :: l => do
    let t ← packElements pack l
    return none :: t
  | x :: l => do
    let h ← pack x
    let t ← packElements pack l
    return some h :: t

/-- The same for unpacking. -/
def unpackElements {β : Type} (unpack : Bytes → Except Err (V (Option β))) : List (Option Bytes) → Except Err (List (V (Option β)))
  | [] => .ok []
  | none :: l => do
    let t ← unpackElements unpack l
    return .atom none :: t
  | some x :: l => do
    let h ← unpack x
    let t ← unpackElements unpack l
    return h :: t

/-- driver/pq3.py:378-386 `pack_an_array`. -/
def packArray {β : Type} (pack : V (Option β) → Except Err Bytes) (typoid : Nat) (a : Arr (Option β)) : Except Err Bytes := do
  let e ← packElements pack a.elements
  arrayPack ⟨0, typoid, a.dims.map Int.ofNat, a.lower, e⟩

/-- driver/pq3.py:390-394 `unpack_an_array`, with `fuel` for the elements. -/
def unpackArray {β : Type} (unpack : Bytes → Except Err (V (Option β))) (fuel : Nat) (data : Bytes) : Option (Except Err (Arr (Option β))) :=
  (arrayUnpack fuel data).map fun r => do
    let a ← r
    let e ← unpackElements unpack a.elements
    arrayFromParts e a.dims a.lbs

end PG.PgArray
