import Verif.Model.Py
/-!
# Model of `postgresql/python/itertools.py`

Iterables are finite lists; an iterator is the list of what it still yields.
-/
namespace PG.Itertools
open PG

/-- itertools.py:10-21 `interlace`: `map(next, cycle([iter(x) for x in iters]))`.  The list is the cycle of iterators, the one
whose turn it is first; a `StopIteration` of any of them ends the whole.  `fuel` bounds the number of items. -/
def interlaceLoop {α : Type} : Nat → List (List α) → List α
  | 0, _ => []
  | _ + 1, [] => []
  | _ + 1, [] :: _ => []
  | fuel + 1, (x :: xs) :: rest => x :: interlaceLoop fuel (rest ++ [xs])

/-- itertools.py:10-21. -/
def interlace {α : Type} (iters : List (List α)) : List α := interlaceLoop (iters.flatten.length + 1) iters

/-- itertools.py:23-40 `chunk`, consumed at most `fuel` times: after each chunk as long as `chunksize` another one follows. -/
def chunkLoop {α : Type} (size : Nat) : Nat → List α → List (List α)
  | 0, _ => []
  | fuel + 1, l =>
    let last := l.take size                                            -- list(islice(iterable, chunksize))
    if last.length = size then last :: chunkLoop size fuel (l.drop size)
    else [last]

/-- The chunks of a list (`fuel` is enough when `chunksize` is positive; with 0 the generator never ends). -/
def chunk {α : Type} (l : List α) (size : Nat) : List (List α) := chunkLoop size (l.length + 1) l

/-- itertools.py:42-48 `find`. -/
def find {α : Type} (l : List α) (p : α → Bool) : Option α :=
  match l with
  | [] => none
  | x :: xs => if p x then some x else find xs p

end PG.Itertools
