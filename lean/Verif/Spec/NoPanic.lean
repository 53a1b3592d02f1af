import Verif.Spec.Jobs

/-!
# Specification: no panics, under weak assumptions

Nothing is assumed of dimensions, of the clock, or of the network.
-/

namespace Trypo.Spec
open EventLoop

variable {F : Type} [GoFloat F]

/-- The search functions of a centroid keep their contract. -/
def CLax (c : Centroid F) : Prop := GoodSearch c.knn ∧ GoodSearch c.kfn

/-- The same of all centroids in a list. -/
def AllLax (h : List (Centroid F)) : Prop := ∀ c ∈ h, CLax c

/-- The search functions of a manager and of its centroids keep their contract, and the capacity is not negative. -/
structure MLax (m : Manager F) : Prop where
  cap : 0 ≤ m.initCap
  knn : GoodSearch m.knn
  kfn : GoodSearch m.kfn
  cs : AllLax m.centroids

/-- Tables point to slots, and the slots hold managers as above. -/
structure WLax (w : World F) : Prop where
  points : ∀ a ns i, (ns, i) ∈ w.table a → i < w.heap.length
  slots : ∀ s ∈ w.heap, MLax s.2

/-- The configuration of a service: any search functions that keep their contract, any capacity that is not negative. -/
structure FacLax (fac : Factory F) : Prop where
  cap : 0 ≤ fac.initCap
  knn : GoodSearch fac.knn
  kfn : GoodSearch fac.kfn

/-- Map orders and arrival orders are orders, random numbers are in range. The clock may jump. -/
structure EnvLax (env : Env) : Prop where
  perm : ∀ p n, (env.perm p n).Perm (List.range n)
  rand : ∀ p n, 0 < n → env.rand p n < n

/-- The counts in a request are not negative. -/
def Request.counts : Request F → Prop
  | .drainUnordered _ _ n => 0 ≤ n
  | .drainOrdered _ _ n => 0 ≤ n
  | .distributeFast _ _ n _ => 0 ≤ n
  | .distributeAccurate _ _ n _ => 0 ≤ n
  | .knnLookup _ _ _ k _ => 0 ≤ k
  | .nearestCentroids _ _ _ n _ => 0 ≤ n
  | _ => True

/-- Counts are not negative and no interval is 0. -/
def Job.counts : Job F → Prop
  | .rpc r => r.counts
  | .query _ (some o) => 0 ≤ o.n
  | .task cfg _ _ => 0 ≤ cfg.fastN ∧ 0 ≤ cfg.accurateN
  | .loop cfg _ skip _ _ => (0 ≤ cfg.fastN ∧ 0 ≤ cfg.accurateN) ∧ ∀ t, skip.interval t ≠ 0
  | _ => True

/-- Requests that take centroids from another node. -/
def Request.steals : Request F → Prop
  | .stealCentroid _ _ _ _ _ => True
  | _ => False

/-- Jobs that take centroids from another node. -/
def Job.steals : Job F → Prop
  | .rpc r => r.steals
  | .task _ _ t => t = .loadBalancing
  | .loop _ _ _ _ _ => True
  | _ => False

/-- The requests that crash the node they are sent to: a negative count, in a namespace that exists at the node. The two
distribution requests do not even look for the namespace first. -/
def Request.crashes (w : World F) : Request F → Prop
  | .drainUnordered a ns n => n < 0 ∧ w.lookup a ns ≠ none
  | .drainOrdered a ns n => n < 0 ∧ w.lookup a ns ≠ none
  | .distributeFast _ _ n _ => n < 0
  | .distributeAccurate _ _ n _ => n < 0
  | .knnLookup a ns _ k _ => k < 0 ∧ w.lookup a ns ≠ none
  | .nearestCentroids a ns _ n _ => n < 0 ∧ w.lookup a ns ≠ none
  | _ => False

/-- The searches of all managers panic for negative counts, as `KNNBrute` does. -/
def SearchPanics (w : World F) : Prop := ∀ s ∈ w.heap, ∀ v pool (k : Int), k < 0 → ∃ e, s.2.knn v pool k = .error e

/-- At every node, the vectors of a namespace, of its centroids and of its datapoints have one dimension (which may change while
there are no centroids, and may differ between nodes); the centroids have the searches of their manager, and these keep their
contract. -/
structure Uniform (w : World F) : Prop where
  points : ∀ a ns i, (ns, i) ∈ w.table a → i < w.heap.length
  slots : ∀ s ∈ w.heap, ManagerOK s.2

end Trypo.Spec
