import Verif.Model.Go
import Verif.Model.MathUtils

/-!
# pkg/searchutils/knn.go
-/

namespace Trypo
open GoFloat

variable {F : Type} [GoFloat F]

/-- pkg/searchutils/knn.go:17-27 `resultItem`. -/
structure ResultItem (F : Type) where
  index : Nat
  score : F
  set : Bool
  deriving DecidableEq, Repr

/-- pkg/searchutils/knn.go:35-46 `bubble`. Returns the new contents of `items`; the final value of `*insertee` is
dropped, as its only caller does. -/
def bubble (insertee : ResultItem F) : List (ResultItem F) → Bool → List (ResultItem F)
  | [], _ => []
  | it :: rest, ascending =>
    -- first `if`, lines 38-40: swap when inserting in descending order
    let swap1 := (lt it.score insertee.score || !it.set) && !ascending
    let ins1 := if swap1 then it else insertee
    let it1 := if swap1 then insertee else it
    -- second `if`, lines 42-44: swap when inserting in ascending order
    let swap2 := (lt ins1.score it1.score || !it1.set) && ascending
    let ins2 := if swap2 then it1 else ins1
    let it2 := if swap2 then ins1 else it1
    it2 :: bubble ins2 rest ascending

/-- pkg/searchutils/knn.go:49-57 `resItems2Indexes`. -/
def resItems2Indexes (items : List (ResultItem F)) : List Nat :=
  (items.filter (fun it => it.set)).map (fun it => it.index)

/-- The cap `similarity`, pkg/searchutils/knn.go:93-96. -/
def worstScore (ascending : Bool) : F := if ascending then maxFloat else neg maxFloat

/-- The search loop, pkg/searchutils/knn.go:101-123, over the vectors the generator still yields; `i` is the index of
the next one and `res` the slots. -/
def knnLoop (target : List F) (dist : List F → List F → Option F) (ascending : Bool) (res : List (ResultItem F))
    (i : Nat) : List (List F) → List (ResultItem F)
  | [] => res
  | v :: rest =>
    match dist target v with
    | none => knnLoop target dist ascending res (i + 1) rest
    | some score =>
      let res1 := if ascending && lt score (worstScore ascending)
        then bubble ⟨i, score, true⟩ res true else res
      let res2 := if !ascending && lt (worstScore ascending) score
        then bubble ⟨i, score, true⟩ res1 false else res1
      knnLoop target dist ascending res2 (i + 1) rest

/-- pkg/searchutils/knn.go:88-125 `KNNBrute`. `pool` is the list of vectors the generator yields before it signals
stop (the loop pulls until then). Panics when `k < 0` (`make`, line 89). -/
def knnBrute (target : List F) (pool : List (List F)) (k : Int) (ascending : Bool)
    (dist : List F → List F → Option F) : Except Panic (List Nat) :=
  if k < 0 then .error .makeNeg
  else
    .ok (resItems2Indexes
      (knnLoop target dist ascending (List.replicate k.toNat ⟨0, worstScore ascending, false⟩) 0 pool))

/-- The search function type, e.g. pkg/kmeans/centroid/centroid.go:18 `knnSearchFunc`: target, pool, k.
Simplification: a search function is modelled as a function of the complete list its generator yields, so it is
assumed to pull its generator to the end exactly once, as `KNNBrute` does. -/
abbrev Search (F : Type) := List F → List (List F) → Int → Except Panic (List Nat)

/-- pkg/searchutils/knn.go:130-138 `KNNCos`. -/
def knnCos : Search F := fun t p k => knnBrute t p k false cosineSimilarity

/-- pkg/searchutils/knn.go:141-149 `KFNCos`. -/
def kfnCos : Search F := fun t p k => knnBrute t p k true cosineSimilarity

/-- pkg/searchutils/knn.go:154-162 `KNNEuc`. -/
def knnEuc : Search F := fun t p k => knnBrute t p k true euclideanDistance

/-- pkg/searchutils/knn.go:165-173 `KFNEuc`. -/
def kfnEuc : Search F := fun t p k => knnBrute t p k false euclideanDistance

end Trypo
