/-!
# What a DB-API cursor delivers

A result is a sequence of rows in which an error of the database may occur between any two rows; how the rows come in chunks is not visible.
Nothing here refers to the model of `postgresql/driver/dbapi20.py`.
-/
namespace PG.Spec.DbApi

/-- An element of a result. -/
inductive Item (ρ ε : Type) where
  | row (r : ρ)
  | failure (e : ε)
  deriving DecidableEq

/-- The result that arrives as these chunks. -/
def result {ρ ε : Type} : List (Except ε (List ρ)) → List (Item ρ ε)
  | [] => []
  | .ok b :: cs => b.map .row ++ result cs
  | .error e :: cs => .failure e :: result cs

/-- The rows of a result. -/
def rowsOf {ρ ε : Type} (l : List (Item ρ ε)) : List ρ := l.filterMap fun | .row r => some r | .failure _ => none

/-- The rows before the first failure, and the failure with what follows it. -/
def untilFailure {ρ ε : Type} : List (Item ρ ε) → List ρ × Option (ε × List (Item ρ ε))
  | [] => ([], none)
  | .failure e :: l => ([], some (e, l))
  | .row r :: l => (r :: (untilFailure l).1, (untilFailure l).2)

/-- What a user calls. `execute` has the chunks of the result, or none for a statement without a result. -/
inductive Op (ρ ε : Type) where
  | fetchone
  | next
  | fetchmany (n : Option Nat)
  | fetchall
  | nextset
  | execute (result : Option (List (Except ε (List ρ))))
  | setArraysize (n : Nat)
  | close

/-- What the user sees. -/
inductive Out (ρ ε : Type) where
  | row (r : ρ)
  | noRow
  | rows (l : List ρ)
  | sets (n : Option Nat)
  | done
  | stopIteration
  | failure (e : ε)
  | isClosed
  | noResult
  deriving DecidableEq

/-- The results on the stack, the newest first; `none` when the cursor is closed. -/
structure State (ρ ε : Type) where
  results : Option (List (List (Item ρ ε)))
  arraysize : Nat

/-- Fetching `n` rows, or all of them. A failure met on the way is raised, once; the rows fetched before it stay in the result. -/
def take {ρ ε : Type} (n : Option Nat) (l : List (Item ρ ε)) : Out ρ ε × List (Item ρ ε) :=
  match untilFailure l, n with
  | (rows, none), some n => (.rows (rows.take n), (rows.drop n).map .row)
  | (rows, none), none => (.rows rows, [])
  | (rows, some (e, l')), some n => if n ≤ rows.length then (.rows (rows.take n), l.drop n) else (.failure e, rows.map .row ++ l')
  | (rows, some (e, l')), none => (.failure e, rows.map .row ++ l')

/-- How many rows `fetchmany` asks for. -/
def amount (n : Option Nat) (arraysize : Nat) : Nat :=
  match n with
  | some (k + 1) => k + 1
  | _ => max arraysize 1

/-- One row; `stop` is what the user sees at the end. -/
def one {ρ ε : Type} (stop : Out ρ ε) : List (Item ρ ε) → Out ρ ε × List (Item ρ ε)
  | [] => (stop, [])
  | .row r :: l => (.row r, l)
  | .failure e :: l => (.failure e, l)

/-- On the newest result. -/
def onTop {ρ ε : Type} (s : State ρ ε) (f : List (Item ρ ε) → Out ρ ε × List (Item ρ ε)) : Out ρ ε × State ρ ε :=
  match s.results with
  | none => (.isClosed, s)
  | some [] => (.noResult, s)
  | some (l :: ls) => ((f l).1, { s with results := some ((f l).2 :: ls) })

/-- A call. -/
def step {ρ ε : Type} (s : State ρ ε) : Op ρ ε → Out ρ ε × State ρ ε
  | .fetchone => onTop s (one .noRow)
  | .next => onTop s (one .stopIteration)
  | .fetchmany n => onTop s (take (some (amount n s.arraysize)))
  | .fetchall => onTop s (take none)
  | .setArraysize n => (.done, { s with arraysize := n })
  | .nextset =>
    match s.results with
    | none => (.isClosed, s)
    | some [] => (.noResult, s)
    | some (_ :: ls) => (.sets (if ls.length = 0 then none else some ls.length), { s with results := some ls })
  | .execute r =>
    match s.results, r with
    | none, _ => (.isClosed, s)
    | some ls, some cs => (.done, { s with results := some (result cs :: ls) })
    | some ls, none => (.done, { s with results := some (ls.drop 1) })
  | .close =>
    match s.results with
    | none => (.isClosed, s)
    | some _ => (.done, { s with results := none })

/-- A sequence of calls: what the user sees. -/
def run {ρ ε : Type} (s : State ρ ε) : List (Op ρ ε) → List (Out ρ ε) × State ρ ε
  | [] => ([], s)
  | o :: os => ((step s o).1 :: (run (step s o).2 os).1, (run (step s o).2 os).2)

/-- A new cursor. -/
def new {ρ ε : Type} : State ρ ε := ⟨some [], 1⟩

/-- The rows in what the user sees. -/
def Out.fetched {ρ ε : Type} : Out ρ ε → List ρ
  | .row r => [r]
  | .rows l => l
  | _ => []

/-- The calls that fetch. -/
def Op.fetches {ρ ε : Type} : Op ρ ε → Bool
  | .fetchone | .next | .fetchmany _ | .fetchall | .setArraysize _ => true
  | _ => false

end PG.Spec.DbApi
