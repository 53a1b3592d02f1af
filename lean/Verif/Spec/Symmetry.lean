import Verif.Spec.ManagerHistory
import Verif.Spec.Vec

/-!
# Specification: changing the coordinates

What it means to change the coordinates of everything: of the vectors that are passed in, of the vectors that are stored, and of
the functions that look at vectors. `φ` is the change of coordinates, `ψ` the way back.
-/

namespace Trypo.Spec

variable {F : Type}

/-- A datapoint in new coordinates: payload and expiry stay. -/
def moveDP (φ : List F → List F) (d : DataPoint F) : DataPoint F := { d with vec := φ d.vec }

/-- A search in new coordinates. -/
def moveSearch (ψ : List F → List F) (s : Search F) : Search F := fun v pool k => s (ψ v) (pool.map ψ) k

/-- A centroid in new coordinates. -/
def moveCentroid (φ ψ : List F → List F) (c : Centroid F) : Centroid F :=
  ⟨φ c.vec, c.dps.map (moveDP φ), moveSearch ψ c.knn, moveSearch ψ c.kfn⟩

/-- A manager in new coordinates. -/
def moveManager (φ ψ : List F → List F) (m : Manager F) : Manager F :=
  ⟨φ m.vec, m.initCap, m.centroids.map (moveCentroid φ ψ), m.threshold, moveSearch ψ m.knn, moveSearch ψ m.kfn⟩

/-- A call in new coordinates; a predicate sees the centroid as it was. -/
def moveCall (φ ψ : List F → List F) : ManagerCall F → ManagerCall F
  | .add d => .add (moveDP φ d)
  | .knnLookup v k drain => .knnLookup (φ v) k drain
  | .nearestCentroids v n drain => .nearestCentroids (φ v) n drain
  | .splitCentroids pred => .splitCentroids fun c => pred (moveCentroid ψ φ c)
  | .mergeCentroids pred => .mergeCentroids fun c => pred (moveCentroid ψ φ c)
  | o => o

/-- All that a history has done, in new coordinates. -/
def moveWorld (φ ψ : List F → List F) (w : ManagerWorld F) : ManagerWorld F :=
  ⟨moveManager φ ψ w.cm, w.accepted.map (moveDP φ), w.out.map (moveDP φ)⟩

/-- A similarity transformation of the vectors of every dimension: `φ` keeps the dimension, has the inverse `ψ`, is linear, and
multiplies all inner products by the same positive number. Rotations, reflections, permutations of the coordinates, and changes
of the unit are such. -/
structure Similarity (φ ψ : List ℝ → List ℝ) : Prop where
  length : ∀ v, (φ v).length = v.length
  left : ∀ v, ψ (φ v) = v
  right : ∀ v, φ (ψ v) = v
  add : ∀ v w, v.length = w.length → φ (List.zipWith (· + ·) v w) = List.zipWith (· + ·) (φ v) (φ w)
  smul : ∀ v (a : ℝ), φ (v.map (a * ·)) = (φ v).map (a * ·)
  inner : ∃ s : ℝ, 0 < s ∧ ∀ v w, v.length = w.length → inner (φ v) (φ w) = s * Spec.inner v w

/-- The payloads a query is answered with after a history. -/
def asked [GoFloat F] (tk : Nat → Int) (iv : List F) (cap thr : Int) (knn kfn : Search F) (os : List (ManagerCall F)) (v : List F)
    (k : Int) (drain : Bool) : Go (List (List UInt8)) := do
  let w ← runManager tk iv cap thr knn kfn os
  let r ← w.cm.knnLookup tk v k drain
  pure (r.1.map fun d => d.payload)

end Trypo.Spec

namespace Trypo

variable {F : Type} [GoFloat F]

/-- A change of coordinates that commutes with the arithmetic on vectors. -/
structure Equi (φ ψ : List F → List F) : Prop where
  len : ∀ v, (φ v).length = v.length
  left : ∀ v, ψ (φ v) = v
  right : ∀ v, φ (ψ v) = v
  add : ∀ v w, v.length = w.length → List.zipWith GoFloat.add (φ v) (φ w) = φ (List.zipWith GoFloat.add v w)
  sub : ∀ v w, v.length = w.length → List.zipWith GoFloat.sub (φ v) (φ w) = φ (List.zipWith GoFloat.sub v w)
  mul : ∀ v (s : F), (φ v).map (fun x => GoFloat.mul x s) = φ (v.map fun x => GoFloat.mul x s)
  div : ∀ v (s : F), (φ v).map (fun x => GoFloat.div x s) = φ (v.map fun x => GoFloat.div x s)

end Trypo
