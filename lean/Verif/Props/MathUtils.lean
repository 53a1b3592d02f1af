import Verif.Proofs.MathUtils
import Verif.Model.F64
import Mathlib.Tactic.NormNum

/-!
# Properties C01-C05, C57: pkg/mathutils
-/

set_option linter.unusedSectionVars false

namespace Trypo
open GoFloat Spec

variable {F : Type} [GoFloat F]

/-! ### C01 -/

/-- C01, flag and shape, for any scalar type: `VecMean` answers true exactly when there is a first vector and all
vectors have its length; the result then has that length. -/
theorem C01_vecMean_flag (vs : List (List F)) :
    ((vecMean vs).2 = true ↔ ∃ v, vs.head? = some v ∧ ∀ w ∈ vs, w.length = v.length) ∧
    (∀ v, vs.head? = some v → (vecMean vs).1.length = v.length) := by
  cases vs with
  | nil => simp [vecMean]
  | cons v vs =>
    constructor
    · simp only [vecMean, List.head?_cons, Option.some.injEq, exists_eq_left', vecMeanLoop_flag]
      simp
    · intro w hw
      simp only [List.head?_cons, Option.some.injEq] at hw
      subst hw
      exact vecMeanLoop_length vs v _

/-- C01, value, in exact arithmetic: when `VecMean` answers true its result is the arithmetic mean. -/
theorem C01_vecMean_mean (vs : List (List ℝ)) (h : (vecMean vs).2 = true) :
    IsMean (vecMean vs).1 vs ∧ ∀ j, comp j (vecMean vs).1 = compSum j vs / vs.length := by
  cases vs with
  | nil => simp [vecMean] at h
  | cons v vs =>
    have hl := (vecMeanLoop_flag vs v (ofNat 1)).1 h
    have key : ∀ j, comp j (vecMean (v :: vs)).1 * ((v :: vs).length : ℝ) = compSum j (v :: vs) := by
      intro j
      have := vecMeanLoop_real j vs v (ofNat 1) (by simp) hl
      simp only [rofNat, Nat.cast_one] at this
      simp only [vecMean, List.length_cons, Nat.cast_add, Nat.cast_one, compSum, List.map_cons, List.sum_cons]
      rw [add_comm (vs.length : ℝ) 1]
      simpa [compSum] using this
    refine ⟨key, fun j => ?_⟩
    rw [eq_div_iff (by simp only [List.length_cons]; positivity)]
    exact key j

example : (vecMean [[.ofInt 1, .ofInt 2], [.ofInt 3, .ofInt 6]] : List F64 × Bool) = ([.ofInt 2, .ofInt 4], true) := by
  decide +kernel

example : ((vecMean [[.ofInt 1, .ofInt 2], [.ofInt 3]] : List F64 × Bool)).2 = false := by decide +kernel

/-! ### C02 -/

/-- C02: `EuclideanDistance` fails exactly on a length mismatch (any scalar type). -/
theorem C02_euclid_fails_iff (v w : List F) : euclideanDistance v w = none ↔ v.length ≠ w.length := by
  unfold euclideanDistance
  by_cases h : v.length = w.length <;> simp [h]

theorem l1_nonneg (v w : List ℝ) : 0 ≤ l1 v w := by
  unfold l1
  apply List.sum_nonneg
  intro x hx
  obtain ⟨p, _, rfl⟩ := List.mem_map.1 hx
  exact abs_nonneg _

theorem l1_comm : ∀ v w : List ℝ, l1 v w = l1 w v
  | [], w => by simp [l1]
  | a :: v, [] => by simp [l1]
  | a :: v, b :: w => by
    have := l1_comm v w
    unfold l1 at *
    simp only [List.zip_cons_cons, List.map_cons, List.sum_cons]
    rw [this, abs_sub_comm]

theorem l1_eq_zero : ∀ v w : List ℝ, v.length = w.length → (l1 v w = 0 ↔ v = w)
  | [], [], _ => by simp [l1]
  | [], b :: w, h => by simp at h
  | a :: v, [], h => by simp at h
  | a :: v, b :: w, h => by
    have ih := l1_eq_zero v w (by simpa using h)
    have hnn := l1_nonneg v w
    have e : l1 (a :: v) (b :: w) = |a - b| + l1 v w := by simp [l1]
    rw [e]
    constructor
    · intro h0
      have h1 : |a - b| = 0 := by linarith [abs_nonneg (a - b)]
      have h2 : l1 v w = 0 := by linarith [abs_nonneg (a - b)]
      rw [ih.1 h2, sub_eq_zero.1 (abs_eq_zero.1 h1)]
    · intro h0
      obtain ⟨rfl, rfl⟩ := List.cons.inj h0
      rw [ih.2 rfl]; simp

theorem l1_triangle : ∀ u v w : List ℝ, u.length = v.length → v.length = w.length → l1 u w ≤ l1 u v + l1 v w
  | [], [], [], _, _ => by simp [l1]
  | a :: u, b :: v, c :: w, h1, h2 => by
    have ih := l1_triangle u v w (by simpa using h1) (by simpa using h2)
    have e1 : l1 (a :: u) (c :: w) = |a - c| + l1 u w := by simp [l1]
    have e2 : l1 (a :: u) (b :: v) = |a - b| + l1 u v := by simp [l1]
    have e3 : l1 (b :: v) (c :: w) = |b - c| + l1 v w := by simp [l1]
    rw [e1, e2, e3]
    have : |a - c| ≤ |a - b| + |b - c| := abs_sub_le a b c
    linarith
  | [], _ :: _, _, h1, _ => by simp at h1
  | _ :: _, [], _, h1, _ => by simp at h1
  | [], [], _ :: _, _, h2 => by simp at h2
  | _ :: _, _ :: _, [], _, h2 => by simp at h2

/-- C02: in exact arithmetic `EuclideanDistance` is a metric on the vectors of each dimension. -/
theorem C02_euclid_metric (u v w : List ℝ) (huv : u.length = v.length) (hvw : v.length = w.length) :
    ∃ duv dvu dvw duw, euclideanDistance u v = some duv ∧ euclideanDistance v u = some dvu ∧
      euclideanDistance v w = some dvw ∧ euclideanDistance u w = some duw ∧
      0 ≤ duv ∧ dvu = duv ∧ (duv = 0 ↔ u = v) ∧ duw ≤ duv + dvw :=
  ⟨l1 u v, l1 v u, l1 v w, l1 u w, euclid_real u v huv, euclid_real v u huv.symm, euclid_real v w hvw,
    euclid_real u w (huv.trans hvw), l1_nonneg u v, l1_comm v u, l1_eq_zero u v huv, l1_triangle u v w huv hvw⟩

example : euclideanDistance [(F64.ofInt 1), .ofInt 5] [.ofInt 4, .ofInt 1] = some (.ofInt 7) := by decide +kernel

/-! ### C03 -/

/-- C03 is violated: for (0,0) and (3,4) the function returns 7, not 5 - on IEEE floats... -/
theorem C03_refuted_f64 :
    euclideanDistance [F64.ofInt 0, .ofInt 0] [.ofInt 3, .ofInt 4] = some (.ofInt 7) ∧
    (sqrt (add (mul (.ofInt 3) (.ofInt 3)) (mul (.ofInt 4) (.ofInt 4))) : F64) = .ofInt 5 := by
  decide +kernel

/-- ... and in exact arithmetic. -/
theorem C03_refuted :
    ¬ ∀ v w : List ℝ, v.length = w.length → euclideanDistance v w = some (Real.sqrt (sqDist v w)) := by
  intro h
  have h1 := h [0, 0] [3, 4] rfl
  rw [euclid_real [0, 0] [3, 4] rfl] at h1
  have e1 : l1 [0, 0] [3, 4] = 7 := by norm_num [l1]
  have e2 : sqDist [0, 0] [3, 4] = 5 ^ 2 := by norm_num [sqDist]
  rw [e1, e2, Real.sqrt_sq (by norm_num)] at h1
  norm_num at h1

theorem sqDist_nonneg (v w : List ℝ) : 0 ≤ sqDist v w := by
  unfold sqDist
  apply List.sum_nonneg
  intro x hx
  obtain ⟨p, _, rfl⟩ := List.mem_map.1 hx
  positivity

theorem sqDist_le_l1_sq : ∀ v w : List ℝ, sqDist v w ≤ (l1 v w) ^ 2
  | [], w => by simp [sqDist, l1]
  | a :: v, [] => by simp [sqDist, l1]
  | a :: v, b :: w => by
    have ih := sqDist_le_l1_sq v w
    have hnn := l1_nonneg v w
    have e1 : sqDist (a :: v) (b :: w) = (a - b) ^ 2 + sqDist v w := by simp [sqDist]
    have e2 : l1 (a :: v) (b :: w) = |a - b| + l1 v w := by simp [l1]
    rw [e1, e2]
    nlinarith [abs_nonneg (a - b), sq_abs (a - b), mul_nonneg (abs_nonneg (a - b)) hnn]

theorem l1_sq_le : ∀ v w : List ℝ, v.length = w.length → (l1 v w) ^ 2 ≤ v.length * sqDist v w
  | [], [], _ => by simp [sqDist, l1]
  | a :: v, b :: w, h => by
    have ih := l1_sq_le v w (by simpa using h)
    have hnn := l1_nonneg v w
    have hs := sqDist_nonneg v w
    have e1 : sqDist (a :: v) (b :: w) = (a - b) ^ 2 + sqDist v w := by simp [sqDist]
    have e2 : l1 (a :: v) (b :: w) = |a - b| + l1 v w := by simp [l1]
    rw [e1, e2]
    simp only [List.length_cons, Nat.cast_add, Nat.cast_one]
    have hx := sq_abs (a - b)
    rcases Nat.eq_zero_or_pos v.length with h0 | h0
    · rw [h0] at ih ⊢
      simp only [Nat.cast_zero, zero_mul] at ih
      have : l1 v w = 0 := by nlinarith
      rw [this]; simp only [add_zero, Nat.cast_zero, zero_add, one_mul, hx]; linarith
    · have hn : (0 : ℝ) < v.length := by exact_mod_cast h0
      have key : 2 * |a - b| * l1 v w ≤ v.length * (a - b) ^ 2 + sqDist v w := by
        have h2 : (v.length : ℝ) * (2 * |a - b| * l1 v w) ≤ v.length * (v.length * (a - b) ^ 2 + sqDist v w) := by
          rw [← hx]
          nlinarith [sq_nonneg ((v.length : ℝ) * |a - b| - l1 v w)]
        exact le_of_mul_le_mul_left h2 hn
      nlinarith
  | [], _ :: _, h => by simp at h
  | _ :: _, [], h => by simp at h

/-- C03, what does hold: the value equals the Euclidean distance in dimension ≤ 1, and
in general it lies between the Euclidean distance and `√dim` times it. Missing: equality in dimension ≥ 2 (false). -/
theorem C03_partial (v w : List ℝ) (h : v.length = w.length) :
    ∃ d, euclideanDistance v w = some d ∧ Real.sqrt (sqDist v w) ≤ d ∧
      d ≤ Real.sqrt (v.length) * Real.sqrt (sqDist v w) ∧ (v.length ≤ 1 → d = Real.sqrt (sqDist v w)) := by
  have h1 : Real.sqrt (sqDist v w) ≤ l1 v w := by
    rw [Real.sqrt_le_left (l1_nonneg v w)]; exact sqDist_le_l1_sq v w
  have h2 : l1 v w ≤ Real.sqrt (v.length) * Real.sqrt (sqDist v w) := by
    rw [← Real.sqrt_mul (by positivity)]
    exact Real.le_sqrt_of_sq_le (l1_sq_le v w h)
  refine ⟨l1 v w, euclid_real v w h, h1, h2, fun hd => le_antisymm ?_ h1⟩
  refine h2.trans ?_
  have : Real.sqrt (v.length : ℝ) ≤ 1 := by
    exact Real.sqrt_le_iff.2 ⟨by norm_num, by simpa using hd⟩
  nlinarith [Real.sqrt_nonneg (sqDist v w)]

/-! ### C04 -/

/-- C04: `CosineSimilarity` fails exactly on a length mismatch (any scalar type). -/
theorem C04_cos_fails_iff (v w : List F) : cosineSimilarity v w = none ↔ v.length ≠ w.length := by
  unfold cosineSimilarity
  by_cases h : v.length = w.length
  · simp only [ne_eq, h, not_true, if_false, iff_false]; split <;> simp
  · simp [h]

theorem cos_real {v w : List ℝ} (h : v.length = w.length) (hv : NonZero v) :
    cosineSimilarity v w = some (inner v w / len v / len w) := by
  unfold cosineSimilarity
  rw [if_neg (by simpa using h), norm_real, norm_real, dot_real, if_neg]
  · rfl
  · simp only [Bool.and_eq_true, req, rzero, not_and]
    intro h0
    exact absurd h0 (len_pos hv).ne'

theorem cos_real' {v w : List ℝ} (h : v.length = w.length) (hw : NonZero w) :
    cosineSimilarity v w = some (inner v w / len v / len w) := by
  unfold cosineSimilarity
  rw [if_neg (by simpa using h), norm_real, norm_real, dot_real, if_neg]
  · rfl
  · simp only [Bool.and_eq_true, req, rzero, not_and]
    intro _ h0
    exact absurd h0 (len_pos hw).ne'

theorem len_sq (v : List ℝ) : len v * len v = inner v v := by
  unfold len; exact Real.mul_self_sqrt (inner_self_nonneg v)

/-- C04: in exact arithmetic, on non-zero vectors of one dimension, the similarity is in `[-1,1]`, symmetric, 1 on equal
arguments and invariant under positive scaling of either argument. -/
theorem C04_cos_similarity (v w : List ℝ) (h : v.length = w.length) (hv : NonZero v) (hw : NonZero w) :
    ∃ s, cosineSimilarity v w = some s ∧ -1 ≤ s ∧ s ≤ 1 ∧ cosineSimilarity w v = some s ∧
      cosineSimilarity v v = some 1 ∧
      (∀ c : ℝ, 0 < c → cosineSimilarity (v.map (fun x => c * x)) w = some s ∧
        cosineSimilarity v (w.map (fun x => c * x)) = some s) := by
  have pv := len_pos hv
  have pw := len_pos hw
  have key : inner v w / len v / len w = inner v w / (len v * len w) := by rw [div_div]
  have habs : |inner v w| ≤ len v * len w := by
    apply abs_le_of_sq_le_sq _ (by positivity)
    have := cauchy_schwarz v w
    calc inner v w ^ 2 ≤ inner v v * inner w w := this
      _ = (len v * len w) ^ 2 := by rw [← len_sq, ← len_sq]; ring
  have hb := abs_le.1 habs
  refine ⟨inner v w / len v / len w, cos_real h hv, ?_, ?_, ?_, ?_, ?_⟩
  · rw [key, le_div_iff₀ (by positivity)]; linarith
  · rw [key, div_le_iff₀ (by positivity)]; linarith
  · rw [cos_real h.symm hw, inner_comm w v, div_right_comm]
  · rw [cos_real rfl hv, ← len_sq, mul_div_assoc, div_self pv.ne', mul_one, div_self pv.ne']
  · intro c hc
    have hcv : NonZero (v.map (fun x => c * x)) := by
      obtain ⟨x, hx, hne⟩ := hv
      exact ⟨c * x, List.mem_map.2 ⟨x, hx, rfl⟩, mul_ne_zero hc.ne' hne⟩
    constructor
    · rw [cos_real (by simpa using h) hcv, inner_smul, len_smul hc]
      congr 2
      rw [mul_div_mul_left _ _ hc.ne']
    · rw [cos_real (by simpa using h) hv, inner_comm v, inner_smul, inner_comm w v, len_smul hc]
      congr 1
      rw [mul_div_assoc, mul_div_mul_left _ _ hc.ne']

/-- C04: two zero vectors have similarity 0. -/
theorem C04_cos_zero (v w : List ℝ) (h : v.length = w.length) (hv : ¬ NonZero v) (hw : ¬ NonZero w) :
    cosineSimilarity v w = some 0 := by
  unfold cosineSimilarity
  rw [if_neg (by simpa using h), norm_real, norm_real, len_zero hv, len_zero hw]
  simp

example : NonZero [1, 0] ∧ NonZero [1, 1] ∧ ¬ NonZero [0, 0] := by
  refine ⟨⟨1, by simp, by norm_num⟩, ⟨1, by simp, by norm_num⟩, ?_⟩
  rintro ⟨x, hx, hne⟩; simp at hx; exact hne hx

/-! ### C05 -/

/-- A finite float64. -/
def Spec.isFinite : F64 → Bool
  | .fin _ _ => true
  | _ => false

/-- C05 is violated: one zero vector gives 0/0 = NaN (the guard needs both norms to be zero). -/
theorem C05_refuted :
    ¬ ∀ v w : List F64, v.length = w.length → (∀ x ∈ v ++ w, isFinite x = true) →
      cosineSimilarity v w ≠ some .nan := by
  intro h
  have h1 : cosineSimilarity [F64.ofInt 0, .ofInt 0] [.ofInt 1, .ofInt 2] = some .nan := by decide +kernel
  exact h [.ofInt 0, .ofInt 0] [.ofInt 1, .ofInt 2] (by simp) (List.all_eq_true.1 (by decide +kernel)) h1

/-- It is violated also without a zero vector: the squares of small numbers underflow, so the norm is 0... -/
theorem C05_refuted_underflow :
    cosineSimilarity [F64.div (.ofInt 1) (.ofInt (2 ^ 600))] [F64.div (.ofInt 1) (.ofInt (2 ^ 500))] = some .nan := by decide +kernel

/-- ... and the squares of large numbers overflow. -/
theorem C05_refuted_overflow :
    cosineSimilarity [F64.ofInt (2 ^ 600)] [F64.ofInt (2 ^ 600)] = some .nan := by decide +kernel

/-- C05, what does hold: if the dot product and the second norm come out finite and both norms come out non-zero, the
result is a number; and two vectors whose norms both come out zero give 0. Missing: one norm zero, and
overflow (false, see the refutations). -/
theorem C05_partial (v w : List F64) (h : v.length = w.length) :
    (isFinite (dot v w) = true → isFinite (norm w) = true → eq (norm v) zero = false → eq (norm w) zero = false →
      norm v ≠ .nan → ∃ s, cosineSimilarity v w = some s ∧ s ≠ .nan) ∧
    (eq (norm v) zero = true → eq (norm w) zero = true → cosineSimilarity v w = some zero) := by
  constructor
  · intro hd hw hv0 hw0 hvn
    unfold cosineSimilarity
    rw [if_neg (by simpa using h), hv0]
    refine ⟨_, rfl, ?_⟩
    generalize dot v w = d at *
    generalize norm v = a at *
    generalize norm w = b at *
    rcases d with _ | _ | ⟨sd, kd⟩ <;> simp only [isFinite, Bool.false_eq_true] at hd
    rcases b with _ | _ | ⟨sb, kb⟩ <;> simp only [isFinite, Bool.false_eq_true] at hw
    have hkb : kb ≠ 0 := by
      rintro rfl; cases sb <;> simp [GoFloat.eq, GoFloat.zero, F64.beq, F64.key] at hw0
    rcases a with _ | sa | ⟨sa, ka⟩
    · exact absurd rfl hvn
    · exact F64.div_ne_nan _ _ _ _ hkb
    · have hka : ka ≠ 0 := by
        rintro rfl; cases sa <;> simp [GoFloat.eq, GoFloat.zero, F64.beq, F64.key] at hv0
      have hm := F64.div_ne_nan sd sa kd ka hka
      show F64.div (F64.div (F64.fin sd kd) (F64.fin sa ka)) (F64.fin sb kb) ≠ .nan
      cases hx : F64.div (F64.fin sd kd) (F64.fin sa ka) with
      | nan => exact absurd hx hm
      | inf s => simp [F64.div]
      | fin s k => exact F64.div_ne_nan _ _ _ _ hkb
  · intro hv hw
    unfold cosineSimilarity
    rw [if_neg (by simpa using h), hv, hw]
    rfl

example : let v : List F64 := [.ofInt 1, .ofInt 2]; let w : List F64 := [.ofInt 3, .ofInt 4]
    isFinite (dot v w) = true ∧ isFinite (norm w) = true ∧ eq (norm v) zero = false ∧ eq (norm w) zero = false ∧
      norm v ≠ .nan := by decide +kernel

/-! ### C57 -/

/-- C57: `VecAdd` and `VecSub` succeed exactly on equal lengths and then work componentwise. -/
theorem C57_add_sub (a b : List F) :
    ((vecAdd a b).2 = true ↔ a.length = b.length) ∧ ((vecSub a b).2 = true ↔ a.length = b.length) ∧
    (a.length = b.length → (vecAdd a b).1.length = a.length ∧ (vecSub a b).1.length = a.length ∧
      ∀ (j : Nat) (x y : F), a[j]? = some x → b[j]? = some y →
        (vecAdd a b).1[j]? = some (add x y) ∧ (vecSub a b).1[j]? = some (sub x y)) := by
  unfold vecAdd vecSub
  by_cases h : a.length = b.length
  · simp only [ne_eq, h, not_true, if_false, true_and, forall_const, List.length_zipWith, Nat.min_self]
    intro j x y hx hy
    simp [List.getElem?_zipWith, hx, hy]
  · simp [h]

/-- C57: scaling keeps the length and works componentwise. -/
theorem C57_scale (v : List F) (s : F) :
    (vecMulScalar v s).length = v.length ∧ (vecDivScalar v s).length = v.length ∧
    ∀ (j : Nat) (x : F), v[j]? = some x →
      (vecMulScalar v s)[j]? = some (mul x s) ∧ (vecDivScalar v s)[j]? = some (div x s) := by
  refine ⟨by simp [vecMulScalar], by simp [vecDivScalar], fun j x hx => ?_⟩
  simp [vecMulScalar, vecDivScalar, hx]

/-- C57: `VecEq` is equality of lengths and `==` of all components. -/
theorem C57_vecEq (v w : List F) :
    vecEq v w = true ↔ v.length = w.length ∧ ∀ (j : Nat) (x y : F), v[j]? = some x → w[j]? = some y → eq x y = true := by
  unfold vecEq
  by_cases h : v.length = w.length
  · simp only [ne_eq, h, not_true, if_false, true_and, List.all_eq_true, Prod.forall]
    constructor
    · intro hall j x y hx hy
      apply hall
      have : (v.zip w)[j]? = some (x, y) := by rw [List.getElem?_zip_eq_some]; exact ⟨hx, hy⟩
      exact List.mem_of_getElem? this
    · intro hall x y hm
      obtain ⟨j, hj⟩ := List.mem_iff_getElem?.1 hm
      rw [List.getElem?_zip_eq_some] at hj
      exact hall j x y hj.1 hj.2
  · simp [h]

/-- C57: `VecIn` holds exactly when some element is `VecEq` to the vector. -/
theorem C57_vecIn (v : List F) (vs : List (List F)) : vecIn v vs = true ↔ ∃ w ∈ vs, vecEq v w = true := by
  simp [vecIn]

example : vecEq [F64.ofInt 0, .ofInt 1] [F64.fin true 0, .ofInt 1] = true ∧ vecEq [F64.nan] [F64.nan] = false ∧
    vecIn [F64.ofInt 2] [[.ofInt 1], [.ofInt 2]] = true := by decide +kernel

example : vecAdd [F64.ofInt 1] [.ofInt 2] = ([.ofInt 3], true) ∧ vecSub [F64.ofInt 1] [] = ([], false) := by
  decide +kernel

end Trypo
