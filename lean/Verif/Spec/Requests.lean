import Verif.Spec.System

/-!
# Specification: what a request does to the manager of its namespace
-/

namespace Trypo.Spec

variable {F : Type} [GoFloat F]

/-- Sizes strictly between two bounds, as documented at pkg/kmeans/rpc/server.go:296-303, 313-320. -/
def sizeBetween (min max : Int) (c : Centroid F) : Bool := decide (min < (c.dps.length : Int) ∧ (c.dps.length : Int) < max)

/-- The method of the centroid manager that a request stands for, with its answer; `none` for the two requests that go
over the network to other nodes, and for `StealCentroid`. -/
def Request.onManager (env : Env) : Request F → Option (Manager F → Go (Answer F × Manager F))
  | .add _ _ d => some (fun m => do let r ← m.addDataPoint env.tk d; pure (.bool true, r.2))
  | .vec _ _ => some (fun m => pure (.vec m.vec, m))
  | .lenDP _ _ => some (fun m => pure (.num (stored m).length, m))
  | .drainUnordered _ _ n => some (fun m => do
      let ord ← env.mapOrder
      let r ← m.drainUnordered env.tk ord n
      pure (.dps r.1, r.2))
  | .drainOrdered _ _ n => some (fun m => do
      let ord ← env.mapOrder
      let r ← m.drainOrdered env.tk ord n
      pure (.dps r.1, r.2))
  | .expire _ _ => some (fun m => do let m' ← m.expire env.tk; pure (.done, m'))
  | .memTrim _ _ => some (fun m => do let m' ← m.memTrim env.tk; pure (.done, m'))
  | .moveVector _ _ => some (fun m => do let r ← m.moveVector env.tk; pure (.bool r.1, r.2))
  | .distributeInternal _ _ n => some (fun m => do
      let ord ← env.mapOrder
      let m' ← m.distributeInternal env.tk ord n
      pure (.done, m'))
  | .knnLookup _ _ v k drain => some (fun m => do let r ← m.knnLookup env.tk v k drain; pure (.dps r.1, r.2))
  | .nearestCentroids _ _ v n drain => some (fun m => do
      let r ← m.nearestCentroids v n drain
      pure (.centroids ((r.1.getD []).map (fun c => c.dps)), r.2))
  | .nearestCentroidVec _ _ v => some (fun m => do
      let r ← m.nearestCentroids v 1 false
      pure (.vec (((r.1.getD []).head?.map (fun c => c.vec)).getD []), r.2))
  | .splitCentroids _ _ min max => some (fun m => do
      let m' ← m.splitCentroids env.tk (sizeBetween min max)
      pure (.done, m'))
  | .mergeCentroids _ _ min max => some (fun m => do
      let m' ← m.mergeCentroids env.tk (sizeBetween min max)
      pure (.done, m'))
  | .distributeFast _ _ _ _ => none
  | .distributeAccurate _ _ _ _ => none
  | .stealCentroid _ _ _ _ _ => none

end Trypo.Spec
