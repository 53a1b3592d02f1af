import Verif.Model.Float

/-!
# pkg/mathutils

Sums are accumulated left to right as in the Go loops. Simplification: no fused multiply-add (the Go compiler does
not fuse on amd64).
-/

namespace Trypo
open GoFloat

variable {F : Type} [GoFloat F]

/-- pkg/mathutils/distance.go:16-25 `EuclideanDistance`; `none` is the error return. -/
def euclideanDistance (v1 v2 : List F) : Option F :=
  if v1.length ≠ v2.length then none
  else some ((v1.zip v2).foldl (fun r p => add r (sqrt (mul (sub p.1 p.2) (sub p.1 p.2)))) zero)

/-- pkg/mathutils/distance.go:28-34 `norm`. -/
def norm (v : List F) : F :=
  sqrt (v.foldl (fun x a => add x (mul a a)) zero)

/-- The dot product loop, pkg/mathutils/distance.go:46-49. -/
def dot (v1 v2 : List F) : F :=
  (v1.zip v2).foldl (fun r p => add r (mul p.1 p.2)) zero

/-- pkg/mathutils/distance.go:38-51 `CosineSimilarity`; `none` is the error return. -/
def cosineSimilarity (v1 v2 : List F) : Option F :=
  if v1.length ≠ v2.length then none
  else if eq (norm v1) zero && eq (norm v2) zero then some zero
  else some (div (div (dot v1 v2) (norm v1)) (norm v2))

/-- The accumulation loop of `VecMean`, pkg/mathutils/vectools.go:13-32, over the vectors the generator still
yields. `res` is the running sum and `n` the running count (a float64 in the code). -/
def vecMeanLoop (res : List F) (n : F) : List (List F) → List F × Bool
  | [] => (res.map (fun x => div x n), true)
  | v :: rest =>
    if v.length ≠ res.length then (res, false)
    else vecMeanLoop (List.zipWith add res v) (add n (ofNat 1)) rest

/-- pkg/mathutils/vectools.go:4-33 `VecMean`, as a function of the list of vectors the generator yields before it
signals stop. -/
def vecMean : List (List F) → List F × Bool
  | [] => ([], false)
  | v :: rest => vecMeanLoop v (ofNat 1) rest

/-- pkg/mathutils/vectools.go:36-42 `Vec`. -/
def vec (v : List F) : List F := v

/-- pkg/mathutils/vectools.go:45-55 `VecEq`. -/
def vecEq (v1 v2 : List F) : Bool :=
  if v1.length ≠ v2.length then false
  else (v1.zip v2).all (fun p => eq p.1 p.2)

/-- pkg/mathutils/vectools.go:58-65 `VecIn`. -/
def vecIn (v : List F) (vecs : List (List F)) : Bool :=
  vecs.any (fun other => vecEq v other)

/-- pkg/mathutils/vectools.go:69-75 `VecDivScalar`. -/
def vecDivScalar (v : List F) (s : F) : List F := v.map (fun x => div x s)

/-- pkg/mathutils/vectools.go:78-84 `VecMulScalar`. -/
def vecMulScalar (v : List F) (s : F) : List F := v.map (fun x => mul x s)

/-- pkg/mathutils/vectools.go:87-96 `VecAdd`; the nil slice of the failure return is `[]`. -/
def vecAdd (a b : List F) : List F × Bool :=
  if a.length ≠ b.length then ([], false) else (List.zipWith add a b, true)

/-- pkg/mathutils/vectools.go:99-108 `VecSub`; the nil slice of the failure return is `[]`. -/
def vecSub (a b : List F) : List F × Bool :=
  if a.length ≠ b.length then ([], false) else (List.zipWith sub a b, true)

end Trypo
