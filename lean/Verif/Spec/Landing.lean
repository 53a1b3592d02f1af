import Verif.Spec.Core
import Verif.Spec.Place

/-!
# Specification: where a datapoint that is put lands
-/

namespace Trypo.Spec

variable {F : Type} [GoFloat F]

/-- The manager `m` has become `m'` by receiving `d` at its centroid number `j`: `d` is appended there, and if that makes the
centroid reach the threshold, the first half of a threshold's worth of datapoints moves to a new centroid at the end. -/
def ReceivedAt (d : DataPoint F) (j : Nat) (m m' : Manager F) : Prop :=
  ∃ l, (m.centroids.map (fun c => c.dps))[j]? = some l ∧ m'.centroids.map (fun c => c.dps) =
    if 2 ≤ m.threshold ∧ m.threshold ≤ (l ++ [d]).length then
      (m.centroids.map (fun c => c.dps)).set j ((l ++ [d]).drop (m.threshold / 2).toNat) ++ [(l ++ [d]).take (m.threshold / 2).toNat]
    else (m.centroids.map (fun c => c.dps)).set j (l ++ [d])

/-- Centroid number `i` at the node `a` has similarity `s` to `v`. -/
def ScoreAt (w : World F) (ns : NS) (v : List F) (a : Addr) (i : Nat) (s : F) : Prop :=
  ∃ m, w.get a ns = some m ∧ HasScore (cosineSimilarity v) false (m.centroids.map (fun c => c.vec)) i s

/-- The namespace's manager at the node `a` has a vector of similarity `s` to `v`. -/
def ScoreOf (w : World F) (ns : NS) (v : List F) (a : Addr) (s : F) : Prop :=
  ∃ m, w.get a ns = some m ∧ cosineSimilarity v m.vec = some s ∧ Comparable false s

/-- Only the manager of `ns` at the node `a` has changed, from `m` to `m'`. -/
def OnlyAt (w w' : World F) (ns : NS) (a : Addr) (m m' : Manager F) : Prop :=
  w.get a ns = some m ∧ w'.get a ns = some m' ∧ ∀ b ns', (b ≠ a ∨ ns' ≠ ns) → w'.get b ns' = w.get b ns'

/-- `d` has landed at the centroid that is most similar of all those at the nodes `addrs`. -/
def LandedNearest (addrs : List Addr) (ns : NS) (d : DataPoint F) (w w' : World F) : Prop :=
  ∃ a ∈ addrs, ∃ m m' j s, OnlyAt w w' ns a m m' ∧ ReceivedAt d j m m' ∧ ScoreAt w ns d.vec a j s ∧
    ∀ b ∈ addrs, ∀ i t, ScoreAt w ns d.vec b i t → ¬ Better false t s

/-- `d` has been sent to the node whose manager is most similar of all those at the nodes `addrs`. There it has landed at the
most similar centroid of that node; or it is the first datapoint there; or no centroid there can be compared and nothing has changed. -/
def LandedFast (addrs : List Addr) (ns : NS) (d : DataPoint F) (w w' : World F) : Prop :=
  ∃ a ∈ addrs, ∃ m m' s, OnlyAt w w' ns a m m' ∧ ScoreOf w ns d.vec a s ∧
    (∀ b ∈ addrs, ∀ t, ScoreOf w ns d.vec b t → ¬ Better false t s) ∧
    ((m.centroids = [] ∧ m'.centroids.map (fun c => c.dps) = [[d]]) ∨
      (∃ j, Nearest d.vec (m.centroids.map (fun c => c.vec)) (some j) ∧ ReceivedAt d j m m') ∨
      (m.centroids ≠ [] ∧ Nearest d.vec (m.centroids.map (fun c => c.vec)) none ∧ m' = m))

end Trypo.Spec
