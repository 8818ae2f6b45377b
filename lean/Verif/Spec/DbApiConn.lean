import Verif.Model.DbApiConn
/-!
# What a DB-API connection is to mean

What is stored, what the program sees of it in its transaction, and three flags. No transaction objects, no savepoints, no server states.
-/
namespace PG.DbApiConn.Spec
open PG PG.Transaction PG.DbApiConn
variable {δ : Type}

/-- `auto`: autocommit mode. `bad`: a statement failed in this transaction. -/
structure St (δ : Type) where
  saved : δ
  work : δ
  auto : Bool
  bad : Bool
  closed : Bool
  deriving DecidableEq, Repr

/-- A new transaction. -/
def St.fresh (s : St δ) : St δ := { s with work := s.saved, auto := false, bad := false }

/-- One call; whether it raises. -/
def step (env : δ → Commit) (s : St δ) : Op δ → Bool × St δ
  | .stmt f =>
    if s.closed then (true, s)
    else if s.auto then
      match f s.saved with
      | some d => (false, { s with saved := d })
      | none => (true, s)
    else if s.bad then (true, s)
    else
      match f s.work with
      | some d => (false, { s with work := d })
      | none => (true, { s with bad := true })
  | .commit =>
    if s.auto || s.closed then (true, s)
    else if s.bad then (false, s.fresh)
    else
      match env s.work with
      | .ok => (false, { s with saved := s.work }.fresh)
      | .error _ => (true, s.fresh)
      | .lost done => (true, { s with saved := if done then s.work else s.saved, closed := true })
  | .rollback => if s.auto || s.closed then (true, s) else (false, s.fresh)
  | .autocommit true => if s.auto then (false, s) else if s.closed then (true, s) else (false, { s.fresh with auto := true })
  | .autocommit false => if s.auto then (s.closed, s.fresh) else (false, s)
  | .close => (s.closed, { s with closed := true })
  | .die => (false, { s with closed := true })

/-- The calls in order. -/
def run (env : δ → Commit) (s : St δ) : List (Op δ) → List Bool × St δ
  | [] => ([], s)
  | o :: os => ((step env s o).1 :: (run env (step env s o).2 os).1, (run env (step env s o).2 os).2)

end PG.DbApiConn.Spec
