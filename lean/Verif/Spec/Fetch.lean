import Verif.Model.Fetch
/-!
# What a result stream should give

The rows (and lines of COPY data) of a reply are its messages of type `D` (68) and `d` (100), in the order in which the server sent them, however they were divided into batches.
-/
namespace PG.Spec.Fetch
open PG PG.Element3 PG.Xact3

/-- The row or line that a message carries. -/
def dataOf (x : Msg) : Option Proc :=
  if x.1 = 68 then
    match parseK .tuple x.2 with
    | .ok m => some (.elem m)
    | .error _ => none
  else if x.1 = 100 then some (.raw x.2)
  else none

/-- The rows and lines of a list of messages. -/
def rowsOf (ms : List Msg) : List Proc := ms.filterMap dataOf

/-- Bind, Execute, Synchronize: the commands of `_pq_xp_fetchall` and `_init` (pq3.py:683-693, 881-883). -/
structure Three (cs : List Elem) : Prop where
  len : cs.length = 3
  bind : ∃ c, cs[0]? = some c ∧ c.kind.typ = some 66
  execute : ∃ c, cs[1]? = some c ∧ c.kind.typ = some 69
  sync : ∃ c, cs[2]? = some c ∧ c.kind.typ = some 83

end PG.Spec.Fetch
