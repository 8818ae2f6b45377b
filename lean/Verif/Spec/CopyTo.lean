import Verif.Model.Xact3
import Verif.Spec.Copy
/-!
# Specification: what a server answers to Bind, Execute, Sync when the statement is a `COPY ... TO STDOUT`

(PostgreSQL's documentation of the protocol, 55.2.3 and 55.2.6.)
-/
namespace PG.Spec.CopyTo
open PG PG.Element3 PG.Xact3

/-- Where the answer is. -/
inductive Stage where | bind | execute | copy | done | sync | over
  deriving DecidableEq, Repr

/-- A notice, a notification or a changed setting: they may come at any time. -/
def IsAsync (m : Msg) : Prop := ∃ k e, asyncKind m.1 = some k ∧ parseK k m.2 = .ok e

/-- An error that does not end the session: type 'E', severity (field 'S') ERROR. -/
def IsError (m : Msg) : Prop :=
  m.1 = 69 ∧ ∃ em sev, parseK .error m.2 = .ok (.error em) ∧ dictGet em [83] = some (some sev) ∧ sev.map upperB = ERROR

/-- `Says g ms rows e`: from stage `g` on the messages are `ms`; the rows of the COPY in them are `rows`; `e`: there is an error. -/
inductive Says : Stage → List Msg → List Bytes → Bool → Prop where
  | over : Says .over [] [] false
  /-- BindComplete -/
  | bound {ms rows e} : Says .execute ms rows e → Says .bind ((50, []) :: ms) rows e
  /-- CopyOutResponse -/
  | begins {d ms rows e} : (∃ x, parseK .copyToBegin d = .ok x) → Says .copy ms rows e → Says .execute ((72, d) :: ms) rows e
  /-- CopyData: one row -/
  | row {d ms rows e} : Says .copy ms rows e → Says .copy ((100, d) :: ms) (d :: rows) e
  /-- CopyDone -/
  | copyDone {ms rows e} : Says .done ms rows e → Says .copy ((99, []) :: ms) rows e
  /-- CommandComplete -/
  | completed {d ms rows e} : Says .sync ms rows e → Says .done ((67, d) :: ms) rows e
  /-- ReadyForQuery -/
  | ready {d ms rows e} : (d = [73] ∨ d = [69] ∨ d = [84]) → Says .over ms rows e → Says .sync ((90, d) :: ms) rows e
  | async {g m ms rows e} : g ≠ .over → IsAsync m → Says g ms rows e → Says g (m :: ms) rows e
  /-- ErrorResponse: the server skips to ReadyForQuery -/
  | error {g m ms rows e} : g ≠ .over → IsError m → Says .sync ms rows e → Says g (m :: ms) rows true

end PG.Spec.CopyTo
