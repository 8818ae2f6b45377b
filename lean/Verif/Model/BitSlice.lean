import Verif.Model.Bitwise
/-!
# Model of slices, the truth and the class `Bit` of `postgresql/types/bitwise.py`

With Python's slices of strings (CPython's `PySlice_AdjustIndices`).
-/
namespace PG.Bitwise
open PG

/-- A bound of a slice in a sequence of `n` items: negative bounds count from the end, then they are clipped to `lower` and `upper`. -/
def clip (n lower upper : Int) (b : Int) : Int :=
  if b < 0 then (if b + n < lower then lower else b + n) else (if b > upper then upper else b)

/-- The indices of `start, start + step, …` before `stop`. -/
def sliceIdx (step : Int) : Nat → Int → Int → List Int
  | 0, _, _ => []
  | fuel + 1, i, stop => if (0 < step ∧ i < stop) ∨ (step < 0 ∧ stop < i) then i :: sliceIdx step fuel (i + step) stop else []

/-- `l[start:stop:step]`. -/
def stepSlice {α : Type} (l : List α) (start stop step : Option Int) : Except Err (List α) :=
  let k := step.getD 1
  if k = 0 then .error .valueError
  else
    let n : Int := l.length
    let lower : Int := if 0 < k then 0 else -1
    let upper : Int := if 0 < k then n else n - 1
    let i := match start with | none => if 0 < k then lower else upper | some b => clip n lower upper b
    let j := match stop with | none => if 0 < k then upper else lower | some b => clip n lower upper b
    .ok ((sliceIdx k (l.length + 1) i j).filterMap fun x => l[x.toNat]?)

/-- bitwise.py:84-90 `Bit(ob)` for a string; ValueError for any other than the two. -/
def bitOf (s : Str) : Except Err Varbit := if s = ['0'] then .ok zeroBit else if s = ['1'] then .ok oneBit else .error .valueError

/-- bitwise.py:84-90 `Bit(ob)` for True and False. -/
def bitOfBool (b : Bool) : Varbit := if b then oneBit else zeroBit

/-- bitwise.py:71-73 `__getitem__` with a slice: the class of the object is called with the slice of its text. The objects with one bit are those of the class `Bit`. -/
def getSlice (v : Varbit) (start stop step : Option Int) : Except Err Varbit := do
  let s ← str v
  let t ← stepSlice s start stop step
  if v.bits = 1 then bitOf t else ofStr t

/-- `bool(v)`: Python 3 does not call `__nonzero__` (bitwise.py:77-81, 92-93), but `__len__`. -/
def truth (v : Varbit) : Except Err Bool := (len v).map (· != 0)

end PG.Bitwise
