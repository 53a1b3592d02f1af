import Verif.Spec.Core
import Verif.Spec.Place

/-!
# Specification: which centroids are stolen
-/

namespace Trypo.Spec

variable {F : Type} [GoFloat F]

/-- Centroids are taken from a list, one at a time, each time the one nearest to `v`, until `limit` datapoints have been taken
(`n` had been taken before), or no centroid can be compared with `v`, or the nearest one has no datapoints. That one is dropped. -/
inductive Robbing (v : List F) (limit : Int) : Nat → List (Centroid F) → List (List (DataPoint F)) → List (Centroid F) → Prop
  | enough {n : Nat} {cs : List (Centroid F)} : limit ≤ n → Robbing v limit n cs [] cs
  | nothing {n : Nat} {cs : List (Centroid F)} : (n : Int) < limit → Nearest v (cs.map (fun c => c.vec)) none → Robbing v limit n cs [] cs
  | empty {n : Nat} {cs : List (Centroid F)} {j : Nat} {c : Centroid F} : (n : Int) < limit → Nearest v (cs.map (fun c => c.vec)) (some j) →
      cs[j]? = some c → c.dps = [] → Robbing v limit n cs [] (cs.eraseIdx j)
  | take {n : Nat} {cs left : List (Centroid F)} {j : Nat} {c : Centroid F} {taken : List (List (DataPoint F))} : (n : Int) < limit →
      Nearest v (cs.map (fun c => c.vec)) (some j) → cs[j]? = some c → c.dps ≠ [] →
      Robbing v limit (n + c.dps.length) (cs.eraseIdx j) taken left → Robbing v limit n cs (c.dps :: taken) left

/-- What a node holds in a namespace, centroid by centroid. -/
def listsAt (w : World F) (a : Addr) (ns : NS) : List (List (DataPoint F)) :=
  match w.get a ns with
  | some m => m.centroids.map (fun c => c.dps)
  | none => []

/-- The vector a node measures with when it takes centroids from a node with the vector `u`: its own, or `u` if it does not have
the namespace. -/
def yardstick (w : World F) (a : Addr) (ns : NS) (u : List F) : List F :=
  match w.get a ns with
  | some m => m.vec
  | none => u

/-- Node `a` has taken centroids from node `src`, which had the manager `s`. What was taken is at the end of what `a` holds now,
in the order it was taken. -/
structure Robbed (limit : Int) (a src : Addr) (ns : NS) (s : Manager F) (w w' : World F) (moved : Nat) : Prop where
  taken : ∃ taken s', Robbing (yardstick w a ns s.vec) limit 0 s.centroids taken s'.centroids ∧ w'.get src ns = some s' ∧
    listsAt w' a ns = listsAt w a ns ++ taken ∧ moved = taken.flatten.length
  /-- the vector of `a` is the mean of the vectors of its centroids -/
  vec : ∀ m, w'.get a ns = some m → m.centroids ≠ [] → m.vec = (vecMean (m.centroids.map (fun c => c.vec))).1
  others : ∀ b ns', (ns' ≠ ns ∨ b ≠ a ∧ b ≠ src) → w'.get b ns' = w.get b ns'

end Trypo.Spec
