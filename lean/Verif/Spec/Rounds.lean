import Verif.Spec.Place

/-!
# Specification: one redistribution after another
-/

namespace Trypo.Spec

variable {F : Type} [GoFloat F]

/-- The states of a manager on which nothing but `DistributeDataPointsInternal(n)` is called, again and again: `ms k` is
the state before call number `k`. Each call may see the map in an order of its own. -/
def Again (tk : Nat → Int) (n : Int) (ms : Nat → Manager F) : Prop :=
  ∀ k, ∃ (ord : List (Nat × Nat) → List (Nat × Nat)) (p p' : Nat), MapOrder ord ∧
    (ms k).distributeInternal tk ord n p = .ok (ms (k + 1), p')

/-- Every datapoint is at the same centroid in both states. -/
def SamePlaces (m m' : Manager F) : Prop :=
  List.Forall₂ List.Perm (m.centroids.map (fun c => c.dps)) (m'.centroids.map (fun c => c.dps))

end Trypo.Spec
