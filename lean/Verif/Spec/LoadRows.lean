/-!
# What loading rows should do

A chunk is good if all its rows can be packed and the statement succeeds for each of them. The good chunks up to the first that is not are stored.
-/
namespace PG.Spec.LoadRows

/-- The data after the rows of a list, one after the other; `none` if one of them cannot be packed or its statement fails. -/
def after {σ ρ π : Type} (exec : σ → π → Option σ) (pack : ρ → Option π) (s : σ) : List ρ → Option σ
  | [] => some s
  | r :: rs => match pack r with
    | none => none
    | some p => match exec s p with
      | none => none
      | some s => after exec pack s rs

/-- The data after the good chunks, and whether all were good. -/
def stored {σ ρ π : Type} (exec : σ → π → Option σ) (pack : ρ → Option π) (s : σ) : List (List ρ) → σ × Bool
  | [] => (s, true)
  | c :: cs => match after exec pack s c with
    | some s => stored exec pack s cs
    | none => (s, false)

end PG.Spec.LoadRows
