import Verif.Proofs.KNN
import Verif.Model.F64
import Verif.Model.RealFloat

/-!
# Properties C06-C10: the KNN search
-/

namespace Trypo
open GoFloat Spec

variable {F : Type} [GoFloat F]

/-- C06, C07. For every target, pool, scoring function, order and `k ≥ 0` the search returns normally, and its result is
a `KBest` answer: distinct valid indexes, exactly `min k (number of candidates)` of them, best first, and no candidate
left out is strictly better than a returned one. Holds for IEEE scores including NaN and infinities. -/
theorem C06_C07_knnBrute_kbest [LawfulCmp F] (t : List F) (dist : List F → List F → Option F) (asc : Bool) (k : Nat)
    (pool : List (List F)) :
    ∃ res, knnBrute t pool (k : Int) asc dist = .ok res ∧ KBest (dist t) asc pool k res :=
  knnBrute_kbest t dist asc k pool

/-- C06 for the four prefabricated searches. -/
theorem C06_prefabs_kbest [LawfulCmp F] (t : List F) (pool : List (List F)) (k : Nat) :
    (∃ r, knnCos t pool k = .ok r ∧ KBest (cosineSimilarity t) false pool k r) ∧
    (∃ r, kfnCos t pool k = .ok r ∧ KBest (cosineSimilarity t) true pool k r) ∧
    (∃ r, knnEuc t pool k = .ok r ∧ KBest (euclideanDistance t) true pool k r) ∧
    (∃ r, kfnEuc t pool k = .ok r ∧ KBest (euclideanDistance t) false pool k r) :=
  ⟨knnBrute_kbest t _ _ k pool, knnBrute_kbest t _ _ k pool, knnBrute_kbest t _ _ k pool, knnBrute_kbest t _ _ k pool⟩

/-- C08. Pool entries without a usable score (the distance function fails or the score is NaN) are never returned, and
the result is the result on the pool without them, re-indexed. `P` is any way of singling out a set of such entries:
all vectors of the pool failing `P` have no usable score. -/
theorem C08_knn_ignores_incomparable [LawfulCmp F] (t : List F) (dist : List F → List F → Option F) (asc : Bool) (k : Nat)
    (pool : List (List F)) (P : List F → Bool)
    (hP : ∀ v ∈ pool, P v = false → dist t v = none ∨ ∃ s, dist t v = some s ∧ eq s s = false) :
    ∃ res res', knnBrute t pool (k : Int) asc dist = .ok res ∧ knnBrute t (pool.filter P) (k : Int) asc dist = .ok res' ∧
      (∀ i ∈ res, ∀ v, pool[i]? = some v → P v = true) ∧
      res = res'.map (fun j => (positions P pool).getD j 0) ∧ (∀ j ∈ res', j < (positions P pool).length) := by
  have hP' : ∀ v ∈ pool, P v = false → isCandidate (dist t) asc v = false := by
    intro v hv hf
    unfold isCandidate
    rcases hP v hv hf with h | ⟨s, h, hs⟩
    · rw [h]
    · rw [h]
      simp only [decide_eq_false_iff_not]
      intro hc
      rw [comparable_num hc] at hs
      cases hs
  obtain ⟨res, h1, h1'⟩ := knnBrute_kbest t dist asc k pool
  obtain ⟨res', h2, h2'⟩ := knnBrute_kbest t dist asc k (pool.filter P)
  refine ⟨res, res', h1, h2, ?_, ?_, ?_⟩
  · intro i hi v hv
    obtain ⟨s, w, hw, hd, hc⟩ := h1'.valid i hi
    rw [hv] at hw
    cases hw
    by_contra hf
    have := hP' v (List.mem_of_getElem? hv) (by simpa using hf)
    unfold isCandidate at this
    rw [hd] at this
    simp [hc] at this
  · have hE := eligItems_filter (dist t) asc P (fun j => (positions P pool).getD j 0) pool 0 0 hP' (by
      intro m x hx
      unfold positions
      rw [List.getD_eq_getElem?_getD]
      simp only [Nat.zero_add]
      rw [hx]; rfl)
    have hU : ∀ u u' : ResultItem F, Renamed (fun j => (positions P pool).getD j 0) u u' →
        ∀ n, List.Forall₂ (Renamed (fun j => (positions P pool).getD j 0)) (List.replicate n u) (List.replicate n u') := by
      intro u u' hu n
      induction n with
      | zero => exact .nil
      | succ n ih => exact .cons hu ih
    have hres := resItems2Indexes_renamed _ _ _ (foldl_bubble_renamed _ asc _ _ _ _ hE
      (hU ⟨0, worstScore asc, false⟩ ⟨0, worstScore asc, false⟩ ⟨rfl, rfl, by simp⟩ k))
    rw [← knnLoop_eq t dist asc, ← knnLoop_eq t dist asc] at hres
    unfold knnBrute at h1 h2
    rw [if_neg (by omega)] at h1 h2
    rw [Int.toNat_natCast] at h1 h2
    cases h1
    cases h2
    exact hres
  · intro j hj
    obtain ⟨s, v, hv, _⟩ := h2'.valid j hj
    rw [positions_length, List.countP_eq_length_filter]
    exact (List.getElem?_eq_some_iff.1 hv).1

/-- C09. Presenting the same pool in another order yields the same list of scores: the results have the same length and
equal (`==`) scores position by position. -/
theorem C09_knn_order_independent [LawfulCmp F] (t : List F) (dist : List F → List F → Option F) (asc : Bool) (k : Nat)
    (pool pool' : List (List F)) (hp : pool.Perm pool') :
    ∃ res res', knnBrute t pool (k : Int) asc dist = .ok res ∧ knnBrute t pool' (k : Int) asc dist = .ok res' ∧
      res.length = res'.length ∧
      ∀ m i j : Nat, res[m]? = some i → res'[m]? = some j →
        ∃ v v' s s', pool[i]? = some v ∧ pool'[j]? = some v' ∧ dist t v = some s ∧ dist t v' = some s' ∧
          eq s s' = true := by
  obtain ⟨res, h1, h1'⟩ := knnBrute_kbest t dist asc k pool
  obtain ⟨res', h2, h2'⟩ := knnBrute_kbest t dist asc k pool'
  refine ⟨res, res', h1, h2, by rw [h1'.length, h2'.length, hp.countP_eq], ?_⟩
  intro m i j hi hj
  obtain ⟨s, hs⟩ := h1'.valid i (List.mem_of_getElem? hi)
  obtain ⟨s', hs'⟩ := h2'.valid j (List.mem_of_getElem? hj)
  have hb := kbest_not_better hp h1' h2' hi hj hs hs'
  have hb' := kbest_not_better hp.symm h2' h1' hj hi hs' hs
  obtain ⟨v, hv1, hv2, hv3⟩ := hs
  obtain ⟨v', hv1', hv2', hv3'⟩ := hs'
  refine ⟨v, v', s, s', hv1, hv1', hv2, hv2', ?_⟩
  rw [LawfulCmp.eq_iff]
  refine ⟨comparable_num hv3, comparable_num hv3', ?_⟩
  unfold Better at hb hb'
  cases asc <;> simp at hb hb' <;> simp [hb, hb']

/-- C10. The search panics exactly on negative `k`. -/
theorem C10_knn_panics_iff (t : List F) (dist : List F → List F → Option F) (asc : Bool) (k : Int) (pool : List (List F)) :
    (∃ e, knnBrute t pool k asc dist = .error e) ↔ k < 0 := by
  unfold knnBrute
  by_cases h : k < 0 <;> simp [h]

/-! ### Concrete cases -/

/-- The hypotheses are met by a pool with a vector of another dimension, a NaN vector and a tie. -/
example : knnEuc (F := F64) [.ofInt 1] [[.ofInt 5], [.ofInt 1, .ofInt 1], [.nan], [.ofInt 2], [.ofInt 0]] 2 = .ok [3, 4] := by
  decide +kernel

example : (∀ v ∈ [[F64.ofInt 5], [.ofInt 1, .ofInt 1], [.nan], [.ofInt 2]],
    (fun v : List F64 => v.length == 1 && v.all (fun x => eq x x)) v = false →
      euclideanDistance [F64.ofInt 1] v = none ∨ ∃ s, euclideanDistance [F64.ofInt 1] v = some s ∧ eq s s = false) := by
  intro v hv
  simp only [List.mem_cons, List.not_mem_nil, or_false] at hv
  rcases hv with rfl | rfl | rfl | rfl
  · intro h; exact absurd h (by decide +kernel)
  · intro _; left; decide +kernel
  · intro _; right; exact ⟨.nan, by decide +kernel, by decide +kernel⟩
  · intro h; exact absurd h (by decide +kernel)

/-- k = 0 and k larger than the pool. -/
example : knnEuc (F := F64) [.ofInt 1] [[.ofInt 5], [.ofInt 2]] 0 = .ok [] ∧
    kfnEuc (F := F64) [.ofInt 1] [[.ofInt 5], [.ofInt 2]] 7 = .ok [0, 1] := by decide +kernel

end Trypo
