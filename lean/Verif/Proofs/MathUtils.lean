import Verif.Model.MathUtils
import Verif.Model.RealFloat
import Verif.Spec.Vec
import Mathlib.Tactic.Ring
import Mathlib.Tactic.Linarith
import Mathlib.Tactic.FieldSimp
import Mathlib.Algebra.Order.BigOperators.Group.List

/-!
# Lemmas about pkg/mathutils
-/

set_option linter.unusedSectionVars false

namespace Trypo
open GoFloat Spec

variable {F : Type} [GoFloat F]

theorem foldl_add_eq {α : Type} (f : α → ℝ) : ∀ (l : List α) (r : ℝ), l.foldl (fun r p => r + f p) r = r + (l.map f).sum
  | [], r => by simp
  | a :: l, r => by simp only [List.foldl_cons, List.map_cons, List.sum_cons]; rw [foldl_add_eq f l]; ring

theorem euclid_real (v w : List ℝ) (h : v.length = w.length) : euclideanDistance v w = some (l1 v w) := by
  unfold euclideanDistance l1
  rw [if_neg (by simpa using h)]
  congr 1
  have : (fun (r : ℝ) (p : ℝ × ℝ) => add r (sqrt (mul (sub p.1 p.2) (sub p.1 p.2)))) = fun r p => r + |p.1 - p.2| := by
    funext r p
    simp only [radd, rsqrt, rmul, rsub]
    rw [Real.sqrt_mul_self_eq_abs]
  rw [this, rzero, foldl_add_eq (fun p : ℝ × ℝ => |p.1 - p.2|)]
  simp

theorem norm_real (v : List ℝ) : norm v = len v := by
  unfold norm len inner
  simp only [rsqrt]
  congr 1
  have : (fun (x a : ℝ) => add x (mul a a)) = fun x a => x + a * a := by funext x a; simp
  rw [this, rzero, foldl_add_eq (fun a : ℝ => a * a)]
  have hz : v.zip v = v.map (fun a => (a, a)) := by induction v with | nil => rfl | cons a v ih => simp [ih]
  rw [hz, List.map_map]
  simp [Function.comp_def]

theorem dot_real (v w : List ℝ) : dot v w = inner v w := by
  unfold dot inner
  have : (fun (r : ℝ) (p : ℝ × ℝ) => add r (mul p.1 p.2)) = fun r p => r + p.1 * p.2 := by funext r p; simp
  rw [this, rzero, foldl_add_eq (fun p : ℝ × ℝ => p.1 * p.2)]
  simp

theorem inner_self_nonneg : ∀ v : List ℝ, 0 ≤ inner v v
  | [] => by simp [inner]
  | a :: v => by
    have := inner_self_nonneg v
    unfold inner at *
    simp only [List.zip_cons_cons, List.map_cons, List.sum_cons]
    nlinarith [mul_self_nonneg a]

theorem inner_self_eq_zero : ∀ v : List ℝ, inner v v = 0 ↔ ¬ NonZero v
  | [] => by simp [inner, NonZero]
  | a :: v => by
    have h1 := inner_self_nonneg v
    have ih := inner_self_eq_zero v
    have h2 : inner (a :: v) (a :: v) = a * a + inner v v := by simp [inner]
    rw [h2]
    constructor
    · intro h
      have ha : a * a = 0 := by nlinarith [mul_self_nonneg a]
      have hv : inner v v = 0 := by nlinarith [mul_self_nonneg a]
      have := ih.1 hv
      rintro ⟨x, hx, hne⟩
      rcases List.mem_cons.1 hx with rfl | hx
      · exact hne (mul_self_eq_zero.1 ha)
      · exact this ⟨x, hx, hne⟩
    · intro h
      have ha : a = 0 := by
        by_contra hne; exact h ⟨a, by simp, hne⟩
      have hv : inner v v = 0 := ih.2 (fun ⟨x, hx, hne⟩ => h ⟨x, by simp [hx], hne⟩)
      rw [ha, hv]; ring

theorem len_pos {v : List ℝ} (h : NonZero v) : 0 < len v := by
  unfold len
  apply Real.sqrt_pos.2
  rcases lt_or_eq_of_le (inner_self_nonneg v) with h1 | h1
  · exact h1
  · exact absurd h ((inner_self_eq_zero v).1 h1.symm)

theorem len_zero {v : List ℝ} (h : ¬ NonZero v) : len v = 0 := by
  unfold len
  rw [(inner_self_eq_zero v).2 h]; simp

theorem inner_comm : ∀ v w : List ℝ, inner v w = inner w v
  | [], w => by simp [inner]
  | a :: v, [] => by simp [inner]
  | a :: v, b :: w => by
    have := inner_comm v w
    unfold inner at *
    simp only [List.zip_cons_cons, List.map_cons, List.sum_cons]
    rw [this]; ring

theorem cauchy_schwarz : ∀ v w : List ℝ, (inner v w) ^ 2 ≤ inner v v * inner w w
  | [], w => by simp [inner]
  | a :: v, [] => by simp [inner]
  | a :: v, b :: w => by
    have ih := cauchy_schwarz v w
    have hv := inner_self_nonneg v
    have hw := inner_self_nonneg w
    have e1 : inner (a :: v) (b :: w) = a * b + inner v w := by simp [inner]
    have e2 : inner (a :: v) (a :: v) = a * a + inner v v := by simp [inner]
    have e3 : inner (b :: w) (b :: w) = b * b + inner w w := by simp [inner]
    rw [e1, e2, e3]
    have h : 2 * (a * b) * inner v w ≤ a ^ 2 * inner w w + b ^ 2 * inner v v := by
      have h0 : 0 ≤ a ^ 2 * inner w w + b ^ 2 * inner v v := by positivity
      refine le_trans (le_abs_self _) (abs_le_of_sq_le_sq ?_ h0)
      have : (a * b) ^ 2 * (inner v w) ^ 2 ≤ (a * b) ^ 2 * (inner v v * inner w w) :=
        mul_le_mul_of_nonneg_left ih (sq_nonneg _)
      nlinarith [sq_nonneg (a ^ 2 * inner w w - b ^ 2 * inner v v)]
    nlinarith

theorem inner_smul (c : ℝ) : ∀ v w : List ℝ, inner (v.map (fun x => c * x)) w = c * inner v w
  | [], w => by simp [inner]
  | a :: v, [] => by simp [inner]
  | a :: v, b :: w => by
    have := inner_smul c v w
    unfold inner at *
    simp only [List.map_cons, List.zip_cons_cons, List.sum_cons]
    rw [this]; ring

theorem len_smul {c : ℝ} (hc : 0 < c) (v : List ℝ) : len (v.map (fun x => c * x)) = c * len v := by
  unfold len
  rw [inner_smul, inner_comm, inner_smul, ← mul_assoc, Real.sqrt_mul (by positivity), Real.sqrt_mul_self hc.le]

/-! ### VecMean -/

theorem vecMeanLoop_flag : ∀ (vs : List (List F)) (res : List F) (n : F),
    (vecMeanLoop res n vs).2 = true ↔ ∀ v ∈ vs, v.length = res.length
  | [], res, n => by simp [vecMeanLoop]
  | v :: vs, res, n => by
    unfold vecMeanLoop
    by_cases h : v.length = res.length
    · simp only [ne_eq, h, not_true, if_false, List.mem_cons, forall_eq_or_imp, true_and]
      rw [vecMeanLoop_flag vs]
      simp [List.length_zipWith, h]
    · simp [h]

theorem vecMeanLoop_length : ∀ (vs : List (List F)) (res : List F) (n : F),
    (vecMeanLoop res n vs).1.length = res.length
  | [], res, n => by simp [vecMeanLoop]
  | v :: vs, res, n => by
    unfold vecMeanLoop
    by_cases h : v.length = res.length
    · simp only [ne_eq, h, not_true, if_false]
      rw [vecMeanLoop_length vs]
      simp [List.length_zipWith, h]
    · simp [h]

theorem comp_zipWith_add (j : Nat) (v w : List ℝ) (h : v.length = w.length) :
    comp j (List.zipWith add v w) = comp j v + comp j w := by
  unfold comp
  simp only [List.getD_eq_getElem?_getD, List.getElem?_zipWith]
  rcases Nat.lt_or_ge j v.length with hj | hj
  · rw [List.getElem?_eq_getElem hj, List.getElem?_eq_getElem (h ▸ hj)]; simp
  · rw [List.getElem?_eq_none hj, List.getElem?_eq_none (h ▸ hj)]; simp

theorem comp_zipWith_sub (j : Nat) (v w : List ℝ) (h : v.length = w.length) :
    comp j (List.zipWith sub v w) = comp j v - comp j w := by
  unfold comp
  simp only [List.getD_eq_getElem?_getD, List.getElem?_zipWith]
  rcases Nat.lt_or_ge j v.length with hj | hj
  · rw [List.getElem?_eq_getElem hj, List.getElem?_eq_getElem (h ▸ hj)]; simp
  · rw [List.getElem?_eq_none hj, List.getElem?_eq_none (h ▸ hj)]; simp

theorem comp_map_div (j : Nat) (v : List ℝ) (s : ℝ) : comp j (v.map (fun x => div x s)) = comp j v / s := by
  unfold comp
  simp only [List.getD_eq_getElem?_getD, List.getElem?_map]
  cases v[j]? <;> simp

theorem comp_map_mul (j : Nat) (v : List ℝ) (s : ℝ) : comp j (v.map (fun x => mul x s)) = comp j v * s := by
  unfold comp
  simp only [List.getD_eq_getElem?_getD, List.getElem?_map]
  cases v[j]? <;> simp

theorem vecMeanLoop_real (j : Nat) : ∀ (vs : List (List ℝ)) (res : List ℝ) (n : ℝ), 0 < n →
    (∀ v ∈ vs, v.length = res.length) →
    comp j (vecMeanLoop res n vs).1 * (n + vs.length) = comp j res + compSum j vs
  | [], res, n, hn, _ => by
    simp only [vecMeanLoop, comp_map_div, List.length_nil, Nat.cast_zero, add_zero, compSum, List.map_nil, List.sum_nil]
    field_simp
  | v :: vs, res, n, hn, h => by
    have hv := h v (by simp)
    unfold vecMeanLoop
    simp only [ne_eq, hv, not_true, if_false]
    have ih := vecMeanLoop_real j vs (List.zipWith add res v) (add n (ofNat 1)) (by simp; linarith)
      (fun w hw => by rw [h w (by simp [hw])]; simp [hv])
    rw [comp_zipWith_add j _ _ hv.symm] at ih
    simp only [radd, rofNat, Nat.cast_one] at ih
    simp only [compSum, List.map_cons, List.sum_cons, List.length_cons, Nat.cast_add, Nat.cast_one] at *
    rw [show n + ((vs.length : ℝ) + 1) = n + 1 + vs.length by ring, show (add n (ofNat 1) : ℝ) = n + 1 by simp, ih]
    ring

end Trypo
