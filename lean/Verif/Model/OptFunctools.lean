import Verif.Model.Row
/-!
# Model of `python/functools.py` and of `postgresql/port/_optimized/functools.c`, which replaces its functions

Calls of Python objects are functions that give a value or an exception; the exceptions say whether they are of the class `Exception`. `ε` are the exceptions.
-/
namespace PG.OptFunctools
open PG

/-- What is raised: `Exception`s, and those that only are `BaseException`s (KeyboardInterrupt, SystemExit). -/
inductive Exn (ε : Type) where
  | typeError
  | runtimeError
  | other (e : ε)
  | base (e : ε)
  deriving DecidableEq, Repr

/-- `isinstance(e, Exception)`. -/
def Exn.isException {ε : Type} : Exn ε → Bool
  | .base _ => false
  | _ => true

/-- The class of a sequence: `tuple` itself, a class derived from it, or another (a list). -/
inductive Cls where | tuple | derived | list
  deriving DecidableEq, Repr

variable {ε β γ : Type}

/-- The handler is called with the cause and the position (procs and tup are those of the call), and should raise. -/
abbrev Handler (ε : Type) := Exn ε → Nat → Option (Exn ε)

/-! ## Python -/

/-- functools.py:52-59: the loop; the items that were made and what stopped it, with the position. -/
def loopPy : List (β → Except (Exn ε) γ) → List (Option β) → Nat → Except (Exn ε × Nat) (List (Option γ))
  | p :: procs, some x :: tup, i =>
    match p x with
    | .error e => .error (e, i)
    | .ok y => match loopPy procs tup (i + 1) with
      | .error e => .error e
      | .ok l => .ok (some y :: l)
  | _ :: procs, none :: tup, i =>
    match loopPy procs tup (i + 1) with
    | .error e => .error e
    | .ok l => .ok (none :: l)
  | _, _, _ => .ok []

/-- functools.py:37-66 `process_tuple`, of any sequences. -/
def processTuplePy (procs : List (β → Except (Exn ε) γ)) (tup : List (Option β)) (handler : Handler ε) : Except (Exn ε) (List (Option γ)) :=
  if tup.length ≠ procs.length then .error .typeError
  else match loopPy procs tup 0 with
    | .ok l => .ok l
    | .error (e, i) =>
      if e.isException then
        match handler e i with
        | some r => .error r
        | none => .error .runtimeError
      else .error e

/-- An iterable: what it gives, and the exception it ends with, if any. -/
structure Iterable (ε α : Type) where
  items : List α
  raises : Option (Exn ε) := none

/-- functools.py:68-69 `process_chunk`: a row after the other. -/
def processChunkPy (procs : List (β → Except (Exn ε) γ)) (handler : Handler ε) (raises : Option (Exn ε)) : List (List (Option β)) → Except (Exn ε) (List (List (Option γ)))
  | [] => match raises with
    | some e => .error e
    | none => .ok []
  | t :: r =>
    match processTuplePy procs t handler with
    | .error e => .error e
    | .ok x => match processChunkPy procs handler raises r with
      | .error e => .error e
      | .ok l => .ok (x :: l)

/-- functools.py:21-24 `Composition.__call__`. -/
def composePy : List (β → Except (Exn ε) β) → β → Except (Exn ε) β
  | [], r => .ok r
  | f :: l, r => match f r with
    | .error e => .error e
    | .ok r => composePy l r

/-! ## C -/

/-- functools.c:54-135: the loop over the positions; what has been put into the new tuple, and how many are left. -/
def loopC (procs : List (β → Except (Exn ε) γ)) (tup : List (Option β)) (handler : Handler ε) : Nat → Nat → List (Option γ) → Except (Exn ε) (List (Option γ))
  | 0, _, rob => .ok rob
  | left + 1, i, rob =>
    match tup[i]?, procs[i]? with
    | some none, _ => loopC procs tup handler left (i + 1) (rob ++ [none])
    | some (some o), some p =>
      match p o with
      | .ok r => loopC procs tup handler left (i + 1) (rob ++ [some r])
      | .error e =>
        if e.isException then
          match handler e i with
          | some r => .error r
          | none => .error .runtimeError
        else .error e
    | _, _ => .ok rob

/-- functools.c:18-138 `_process_tuple`. -/
def processTupleC (procsCls : Cls) (procs : List (β → Except (Exn ε) γ)) (tupCls : Cls) (tup : List (Option β)) (handler : Handler ε) : Except (Exn ε) (List (Option γ)) :=
  if procsCls ≠ .tuple then .error .typeError
  else if tupCls = .list then .error .typeError
  else if tup.length ≠ procs.length then .error .typeError
  else loopC procs tup handler tup.length 0 []

/-- functools.c:156-188, 190-222: the loops over the rows, which have a class each. -/
def chunkLoopC (procsCls : Cls) (procs : List (β → Except (Exn ε) γ)) (handler : Handler ε) : List (Cls × List (Option β)) → Except (Exn ε) (List (List (Option γ)))
  | [] => .ok []
  | (c, t) :: r =>
    match processTupleC procsCls procs c t handler with
    | .error e => .error e
    | .ok x => match chunkLoopC procsCls procs handler r with
      | .error e => .error e
      | .ok l => .ok (x :: l)

/-- functools.c:224-244 `process_chunk`: anything but a list is made a list first. -/
def processChunkC (procsCls : Cls) (procs : List (β → Except (Exn ε) γ)) (rows : Iterable ε (Cls × List (Option β))) (handler : Handler ε) :
    Except (Exn ε) (List (List (Option γ))) :=
  match rows.raises with
  | some e => .error e
  | none => chunkLoopC procsCls procs handler rows.items

/-- functools.c:262-325 `compose`: the loop over positions. -/
def composeC (seq : List (β → Except (Exn ε) β)) : Nat → Nat → β → Except (Exn ε) β
  | 0, _, rob => .ok rob
  | left + 1, i, rob =>
    match seq[i]? with
    | none => .ok rob
    | some x => match x rob with
      | .error e => .error e
      | .ok r => composeC seq left (i + 1) r

end PG.OptFunctools
