import Verif.Model.Transaction
/-!
# What transactions are to mean

There is one value, the data. A block that is left by an exception leaves the data as it found them; so does a block in which a statement failed, even when the program caught the exception,
unless it failed in an inner block that was left by it. Only a block that is not in another one asks the server to commit.
-/
namespace PG.Transaction.Spec
open PG PG.Transaction
variable {δ : Type}

/-- The data; whether a statement failed in this block; whether the connection is lost; what is raised. -/
structure Result (δ : Type) where
  data : δ
  doomed : Bool
  lost : Bool
  raised : Bool
  deriving DecidableEq, Repr

/-- Inside a block or not. -/
def meaning (env : δ → Commit) : Prog δ → Bool → δ → Bool → Bool → Result δ
  | .skip, _, d, doomed, lost => ⟨d, doomed, lost, false⟩
  | .raise, _, d, doomed, lost => ⟨d, doomed, lost, true⟩
  | .interrupt, _, d, doomed, lost => ⟨d, doomed, lost, true⟩
  | .die, _, d, doomed, _ => ⟨d, doomed, true, true⟩
  | .stmt f, inside, d, doomed, lost =>
    if lost || doomed then ⟨d, doomed, lost, true⟩
    else
      match f d with
      | some d' => ⟨d', false, false, false⟩
      | none => ⟨d, inside, false, true⟩
  | .seq p q, inside, d, doomed, lost =>
    let r := meaning env p inside d doomed lost
    if r.raised then r else meaning env q inside r.data r.doomed r.lost
  | .tryExcept p q, inside, d, doomed, lost =>
    let r := meaning env p inside d doomed lost
    if r.raised then meaning env q inside r.data r.doomed r.lost else r
  | .block conf _ p, inside, d, doomed, lost =>
    if lost || doomed || (if inside then conf != .plain else conf == .bad || conf == .semicolon) then ⟨d, doomed, lost, true⟩
    else
      let r := meaning env p true d false false
      if r.lost then ⟨d, inside && r.doomed, true, true⟩
      else if r.raised || r.doomed then ⟨d, false, false, true⟩
      else if inside then ⟨r.data, false, false, false⟩
      else
        match env r.data with
        | .ok => ⟨r.data, false, false, false⟩
        | .error _ => ⟨d, false, false, true⟩
        | .lost done => ⟨if done then r.data else d, false, true, true⟩

end PG.Transaction.Spec
