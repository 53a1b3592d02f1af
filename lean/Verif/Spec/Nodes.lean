import Verif.Spec.System

/-!
# Specification: choosing nodes
-/

namespace Trypo.Spec

variable {F : Type} [GoFloat F]

/-- `r` is what a caller hears from the node at `a` whose answer is `val`: that answer, or nothing if the network fails at
some time. -/
def Heard {β : Type} (env : Env) (a : Addr) (val r : Option β) : Prop :=
  r = val ∨ (r = none ∧ ∃ p, env.up p a = false ∨ env.back p a = false)

/-- The nodes in `answers` that gave a vector which can be compared are those in `out`, each as often as it answered, the
best ones first. Scores are given by `dist`. -/
def BestFit (dist : List F → Option F) (asc : Bool) (answers : List (Addr × Option (List F))) (out : List Addr) : Prop :=
  ∃ chosen : List (Addr × List F), out = chosen.map (fun q => q.1) ∧
    (chosen.map (fun q => (q.1, some q.2))).Perm (answers.filter (fun q => match q.2 with
      | some v => decide (v ≠ []) && isCandidate dist asc v
      | none => false)) ∧
    chosen.Pairwise (fun q r => ∀ s t, dist q.2 = some s → dist r.2 = some t → ¬ Better asc t s)

/-- `v` is the vector of a centroid of `m` that is nearest to `t`, or empty if no centroid can be compared. -/
def NearestVec (t : List F) (m : Manager F) (v : List F) : Prop :=
  (v = [] ∧ ∀ c ∈ m.centroids, isCandidate (cosineSimilarity t) false c.vec = false) ∨
  ∃ c ∈ m.centroids, v = c.vec ∧ isCandidate (cosineSimilarity t) false c.vec = true ∧
    ∀ c' ∈ m.centroids, ∀ s s', cosineSimilarity t c.vec = some s → cosineSimilarity t c'.vec = some s' →
      Comparable false s' → ¬ Better false s' s

end Trypo.Spec
