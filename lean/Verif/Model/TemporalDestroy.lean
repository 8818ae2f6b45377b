import Verif.Model.Cluster
/-!
# Model of `Temporal.destroy` (`postgresql/temporal.py` 65-85)

Over the model of clusters.
-/
namespace PG.Cluster
open PG

/-- temporal.py:65-85 `destroy`, registered to be called at the end of the process; `mine` says whether this is the process that made the cluster, and whether it has one. The connection that is to end all others is
never made: `cluster` is a local variable that has no value yet, and the UnboundLocalError is ignored. `five` and `ten` are the seconds of the waits. -/
def destroy (mine : Bool) (five ten : Int) (fuel : Nat) : M Unit :=
  if mine then do
    stop
    waitUntilStopped five fuel
    drop ten fuel
  else pure ()

end PG.Cluster
