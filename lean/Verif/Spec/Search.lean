import Verif.Model.Float

/-!
# Specification: k best candidates

Independent of the model of the search loop. A pool is a list of vectors, `dist` a partial scoring function.
-/

namespace Trypo
open GoFloat

variable {F : Type} [GoFloat F]

namespace Spec

/-- `a` is a strictly better score than `b`: smaller when `asc`, larger otherwise. -/
def Better (asc : Bool) (a b : F) : Prop := if asc then lt a b = true else lt b a = true

instance (asc : Bool) (a b : F) : Decidable (Better asc a b) := by unfold Better; infer_instance

/-- A score that is strictly better than the worst finite score. NaN never is. -/
def Comparable (asc : Bool) (s : F) : Prop := Better asc s (if asc then maxFloat else neg maxFloat)

instance (asc : Bool) (s : F) : Decidable (Comparable asc s) := by unfold Comparable; infer_instance

/-- Index `i` of the pool is a candidate with score `s`. -/
def HasScore (dist : List F → Option F) (asc : Bool) (pool : List (List F)) (i : Nat) (s : F) : Prop :=
  ∃ v, pool[i]? = some v ∧ dist v = some s ∧ Comparable asc s

/-- A vector that can be a candidate. -/
def isCandidate (dist : List F → Option F) (asc : Bool) (v : List F) : Bool :=
  match dist v with
  | none => false
  | some s => decide (Comparable asc s)

/-- Positions in the pool of the vectors satisfying `P`, in order. -/
def positions (P : List F → Bool) (pool : List (List F)) : List Nat :=
  (pool.zipIdx.filter (fun q => P q.1)).map (fun q => q.2)

/-- `res` is a correct answer to "the `k` best of `pool`, best first". -/
structure KBest (dist : List F → Option F) (asc : Bool) (pool : List (List F)) (k : Nat) (res : List Nat) : Prop where
  nodup : res.Nodup
  valid : ∀ i ∈ res, ∃ s, HasScore dist asc pool i s
  length : res.length = min k (pool.countP (isCandidate dist asc))
  sorted : res.Pairwise (fun i j => ∀ s t, HasScore dist asc pool i s → HasScore dist asc pool j t → ¬ Better asc t s)
  best : ∀ i ∈ res, ∀ j, j ∉ res → ∀ s t, HasScore dist asc pool i s → HasScore dist asc pool j t → ¬ Better asc t s

end Spec
end Trypo

namespace Trypo.Spec
open GoFloat

/-- `out` is a best-first choice with nothing strictly better left in `rest`, scores being `score`. Elements without a
comparable score do not count. -/
structure BestOf {F α : Type} [GoFloat F] (score : α → Option F) (asc : Bool) (out rest : List α) : Prop where
  comparable : ∀ d ∈ out, ∃ s, score d = some s ∧ Comparable asc s
  sorted : out.Pairwise (fun d e => ∀ s t, score d = some s → score e = some t → ¬ Better asc t s)
  best : ∀ d ∈ out, ∀ e ∈ rest, ∀ s t, score d = some s → score e = some t → Comparable asc t → ¬ Better asc t s

/-- Number of elements with a comparable score. -/
def candidates {F α : Type} [GoFloat F] (score : α → Option F) (asc : Bool) (l : List α) : Nat :=
  l.countP (fun d => match score d with | none => false | some s => decide (Comparable asc s))

end Trypo.Spec
