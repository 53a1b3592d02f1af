import Verif.Spec.Requests

/-!
# Maintenance of the sizes of centroids

What C88 says about repeated calls of `SplitCentroids` and `MergeCentroids`.
-/

namespace Trypo.Spec

variable {F : Type} [GoFloat F]

/-- A maintenance call: `true` splits the centroids with sizes between `a` and `b`, `false` merges those with sizes between `c`
and `d`. -/
def upkeep (a b c d : Int) : Bool → ManagerCall F
  | true => .splitCentroids (sizeBetween a b)
  | false => .mergeCentroids (sizeBetween c d)

/-- Nothing is left to do: no centroid has a size to be split, and none a size to be merged, unless there is only one. -/
structure Settled (a b c d : Int) (cs : List (Centroid F)) : Prop where
  split : ∀ x ∈ cs, ¬ (a < (x.dps.length : Int) ∧ (x.dps.length : Int) < b)
  merge : cs.length ≤ 1 ∨ ∀ x ∈ cs, ¬ (c < (x.dps.length : Int) ∧ (x.dps.length : Int) < d)

end Trypo.Spec
