import Verif.Spec.Jobs

/-!
# Specification: the datapoints in an answer
-/

namespace Trypo.Spec

variable {F : Type} [GoFloat F]

/-- The datapoints in the answer to a request. -/
def Request.shows : Request F → Answer F → List (DataPoint F)
  | .drainUnordered _ _ _, .dps l => l
  | .drainOrdered _ _ _, .dps l => l
  | .knnLookup _ _ _ _ _, .dps l => l
  | .nearestCentroids _ _ _ _ _, .centroids l => l.flatten
  | _, _ => []

/-- The datapoints of a namespace that a client gets to see. -/
def Job.shows (j : Job F) (o : Outcome F) (ns : NS) : List (DataPoint F) :=
  match j, o with
  | .rpc r, .answer a => if r.ns = ns then r.shows a else []
  | .query _ (some q), .found _ l => if q.ns = ns then l.map (fun d => d.toDataPoint) else []
  | _, _ => []

/-- Requests for single datapoints. A request for centroids gets them as they are, with expired datapoints. -/
def Job.forDatapoints : Job F → Prop
  | .rpc (.nearestCentroids _ _ _ _ _) => False
  | _ => True

/-- How many datapoints were asked for. -/
def Job.asksFor : Job F → Option Int
  | .rpc (.drainUnordered _ _ n) => some (max n 1)
  | .rpc (.drainOrdered _ _ n) => some (max n 1)
  | .rpc (.knnLookup _ _ _ k _) => some k
  | .query _ (some q) => some q.n
  | _ => none

/-- The vector that is searched for. -/
def Job.target : Job F → Option (List F)
  | .rpc (.knnLookup _ _ v _ _) => some v
  | .query _ (some q) => some q.vec
  | _ => none

/-- The cosine similarity of two vectors exists and is a score that can be compared (not NaN, and more than the smallest number). -/
def Similar (v w : List F) : Prop := ∃ s, cosineSimilarity v w = some s ∧ Comparable false s

end Trypo.Spec
