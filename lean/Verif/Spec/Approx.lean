import Verif.Spec.Vec
import Mathlib.Analysis.SpecialFunctions.Trigonometric.Inverse

/-!
# Specification: how near the answer of a search is

Textbook notions over ℝ, independent of the model.
-/

namespace Trypo.Spec

/-- The angle between two vectors, between 0 and π; a right angle if one of them is zero. -/
noncomputable def angle (v w : List ℝ) : ℝ := Real.arccos (inner v w / (len v * len w))

/-- `res` are positions of the `k` vectors of `pool` with the smallest values of `dist` among those of dimension `n` (or of all of
them, if there are fewer), smallest first. -/
structure ClosestFirst (dist : List ℝ → ℝ) (n : Nat) (pool : List (List ℝ)) (k : Nat) (res : List Nat) : Prop where
  nodup : res.Nodup
  valid : ∀ i ∈ res, ∃ v, pool[i]? = some v ∧ v.length = n
  length : res.length = min k (pool.countP (fun v => v.length = n))
  sorted : res.Pairwise (fun i j => ∀ v w, pool[i]? = some v → pool[j]? = some w → dist v ≤ dist w)
  best : ∀ i ∈ res, ∀ j, j ∉ res → ∀ v w, pool[i]? = some v → pool[j]? = some w → w.length = n → dist v ≤ dist w

end Trypo.Spec
