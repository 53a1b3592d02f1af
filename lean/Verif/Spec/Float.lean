import Verif.Model.F64
import Verif.Spec.Vec
import Verif.Spec.CentroidHistory

/-!
# Specification: float64 numbers as real numbers
-/

namespace Trypo
namespace F64

/-- The value of a finite float64: `fin s k` stands for `(-1)^s * k * 2^-1074`. -/
noncomputable def val : F64 → ℝ
  | fin s k => (key s k : ℝ) / (UNIT : ℝ)
  | _ => 0

/-- A finite float64. -/
def Fin (x : F64) : Prop := ∃ s k, x = fin s k

/-- The unit roundoff, `2^-53`. -/
noncomputable def u : ℝ := 1 / 2 ^ 53

/-- Half of the smallest positive number, `2^-1075`. -/
noncomputable def η : ℝ := 1 / (2 * (UNIT : ℝ))

/-- The magnitudes, in multiples of `2^-1074`, that have at most 53 significant bits. -/
def Representable (k : Nat) : Prop := ∃ m e, m < 2 ^ 53 ∧ k = m * 2 ^ e

end F64

namespace Spec
open F64

/-- The real vector that a float64 vector stands for. -/
noncomputable def vals (v : List F64) : List ℝ := v.map val

/-- The exact cosine of the angle between two real vectors. -/
noncomputable def cosine (v w : List ℝ) : ℝ := inner v w / (len v * len w)

/-- A vector of ordinary numbers: finite components of magnitude at most `2^500`, one of them at least `2^-480`. -/
def Moderate (v : List F64) : Prop := (∀ x ∈ v, Fin x ∧ |val x| ≤ 2 ^ 500) ∧ ∃ x ∈ v, 1 / 2 ^ 480 ≤ |val x|

/-- Finite components of magnitude at most `2^500`. -/
def Modest (v : List F64) : Prop := ∀ x ∈ v, Fin x ∧ |val x| ≤ 2 ^ 500

/-- `res` is an answer to "the `k` best vectors of dimension `n` in the pool, best first", where `ok v w` says that `v` is at least as good
as `w`. -/
structure BestBy (n : Nat) (ok : List F64 → List F64 → Prop) (pool : List (List F64)) (k : Nat) (res : List Nat) : Prop where
  nodup : res.Nodup
  valid : ∀ i ∈ res, ∃ v, pool[i]? = some v ∧ v.length = n
  length : res.length = min k (pool.countP (fun v => v.length == n))
  sorted : res.Pairwise (fun i j => ∀ v w, pool[i]? = some v → pool[j]? = some w → ok v w)
  best : ∀ i ∈ res, ∀ j, j ∉ res → ∀ v w, pool[i]? = some v → pool[j]? = some w → w.length = n → ok v w

/-- A bound on magnitudes that is neither extremely small nor extremely large. -/
structure Bound (M : ℝ) : Prop where
  low : 1 / 2 ^ 1000 ≤ M
  high : M ≤ 2 ^ 900

/-- The numbers handed to a centroid: initial vectors are finite, components of datapoints are finite and at most `M` in magnitude. -/
def CentroidCall.within (M : ℝ) : CentroidCall F64 → Prop
  | .create v _ _ _ => ∀ x ∈ v, Fin x
  | .add _ d => ∀ x ∈ d.vec, Fin x ∧ |val x| ≤ M
  | _ => True

/-- How many datapoints a call can put into centroids. -/
def CentroidCall.puts : CentroidCall F64 → Nat
  | .add _ _ => 1
  | .distribute _ n _ => n.toNat
  | _ => 0

end Spec
end Trypo
