import Verif.Proofs.F64Mean
import Verif.Proofs.CentroidHistory

/-!
# The drift of a centroid vector in float64
-/

namespace Trypo
namespace F64
open Spec

attribute [local irreducible] UNIT TOP

theorem _root_.Trypo.Spec.Bound.η_le {M : ℝ} (h : Bound M) : η ≤ u / 1000 * M := by
  have hu := u_pos
  refine le_trans ?_ (mul_le_mul_of_nonneg_left h.low (by positivity))
  rw [η_eq, show (1075 : Nat) = 75 + 1000 from rfl, pow_add, u_val]
  have : (0 : ℝ) < 2 ^ 1000 := by positivity
  have h2 : (1000 * 9007199254740992 : ℝ) ≤ 2 ^ 75 := by norm_num
  rw [mul_one_div, div_div, div_div]
  refine one_div_le_one_div_of_le (by positivity) ?_
  generalize (2 : ℝ) ^ 75 = X at *
  generalize (2 : ℝ) ^ 1000 = Y at *
  nlinarith

theorem _root_.Trypo.Spec.Bound.pos {M : ℝ} (h : Bound M) : 0 < M := lt_of_lt_of_le (by positivity) h.low

theorem _root_.Trypo.Spec.Bound.half {M : ℝ} (h : Bound M) {K : ℝ} (hK : K ≤ 2 ^ 60) : K * M + 8 ≤ HALF := by
  have h1 : K * M ≤ 2 ^ 60 * 2 ^ 900 := mul_le_mul hK h.high h.pos.le (by positivity)
  have h2 : HALF = 2 * 2 ^ 62 * (2 ^ 60 * 2 ^ 900) := by
    unfold HALF; rw [← pow_add, ← pow_succ', ← pow_add]
  have h3 : (1 : ℝ) ≤ 2 ^ 60 * 2 ^ 900 := by rw [← pow_add]; exact one_le_pow₀ (by norm_num)
  rw [h2]
  generalize (2 : ℝ) ^ 60 * 2 ^ 900 = X at *
  nlinarith

/-- Multiply, add, divide. -/
theorem mad_real {M N m p0 y p s c : ℝ} (hb : Bound M) (hN : 0 ≤ N) (hm : 1 ≤ m) (hmN : m ≤ N + 1)
    (hp0 : |p0| ≤ (N + 1) * M) (hy : |y| ≤ M)
    (hp : |p - p0| ≤ u * |p0| + η) (hs : |s - (p + y)| ≤ u * |p + y|) (hc : |c - s / m| ≤ u * |s / m| + η) :
    |m * c - (p0 + y)| ≤ 4 * (N + 2) * u * M := by
  have hu := u_pos
  have hu2 : u ≤ 1 / 1000 := by rw [u_val]; norm_num
  have hη := hb.η_le
  have hη0 := η_pos
  have hM := hb.pos
  have hm0 : 0 < m := by linarith
  have hK : 0 ≤ N * M := mul_nonneg hN hM.le
  have huM : 0 < u * M := mul_pos hu hM
  have huK : 0 ≤ u * (N * M) := mul_nonneg hu.le hK
  have a1 : u * |p0| ≤ u * ((N + 1) * M) := mul_le_mul_of_nonneg_left hp0 hu.le
  have b1 : |p| ≤ |p0| + (u * |p0| + η) := by have := abs_sub_abs_le_abs_sub p p0; linarith
  have b2 : |p + y| ≤ |p| + |y| := abs_add_le _ _
  have b3 : |s| ≤ |p + y| + u * |p + y| := by have := abs_sub_abs_le_abs_sub s (p + y); linarith
  -- crude bounds
  have uK2 : u * (N * M) ≤ 1 / 1000 * (N * M) := mul_le_mul_of_nonneg_right hu2 hK
  have uM2 : u * M ≤ 1 / 1000 * M := mul_le_mul_of_nonneg_right hu2 hM.le
  have c1 : |p + y| ≤ (1 + 1 / 100) * ((N + 2) * M) := by
    have : u / 1000 * M ≤ 1 / 1000 * M := mul_le_mul_of_nonneg_right (by linarith) hM.le
    nlinarith
  have c1' : u * |p + y| ≤ u * ((1 + 1 / 100) * ((N + 2) * M)) := mul_le_mul_of_nonneg_left c1 hu.le
  have c2 : |s| ≤ (1 + 1 / 10) * ((N + 2) * M) := by
    have : u * |p + y| ≤ 1 / 1000 * |p + y| := mul_le_mul_of_nonneg_right hu2 (abs_nonneg _)
    nlinarith
  have c2' : u * |s| ≤ u * ((1 + 1 / 10) * ((N + 2) * M)) := mul_le_mul_of_nonneg_left c2 hu.le
  have d1 : |m * c - s| ≤ u * |s| + m * η := by
    have e : m * c - s = m * (c - s / m) := by field_simp
    rw [e, abs_mul, abs_of_pos hm0]
    calc m * |c - s / m| ≤ m * (u * |s / m| + η) := mul_le_mul_of_nonneg_left hc hm0.le
      _ = u * |s| + m * η := by rw [abs_div, abs_of_pos hm0]; field_simp
  have d2 : m * η ≤ (N + 1) * (u / 1000 * M) := mul_le_mul hmN hη hη0.le (by linarith)
  have e : m * c - (p0 + y) = (m * c - s) + ((s - (p + y)) + (p - p0)) := by ring
  rw [e]
  refine (abs_add_le _ _).trans ((add_le_add le_rfl (abs_add_le _ _)).trans ?_)
  nlinarith

/-- One update of a component: multiply by `n`, add or subtract `x`, divide by `m`. -/
theorem mad {M : ℝ} {N n m : Nat} {c x D : F64} {y S E : ℝ} (op : F64 → F64 → F64)
    (hop : ∀ p, Fin p → |val p + y| * (1 + u) + η < 2 ^ 1024 → Fin (op p x) ∧ |val (op p x) - (val p + y)| ≤ u * |val p + y|)
    (hb : Bound M) (hNN : N ≤ 2 ^ 50) (hn : n ≤ N) (hm : 1 ≤ m) (hmN : m ≤ N + 1) (hD : D = ofNat m)
    (fc : Fin c) (hS : |S| ≤ n * M) (hy : |y| ≤ M) (hE : |n * val c - S| ≤ E) (hEM : E ≤ M) :
    Fin (div (op (mul c (ofNat n)) x) D) ∧ |m * val (div (op (mul c (ofNat n)) x) D) - (S + y)| ≤ E + 4 * (N + 2) * u * M := by
  have hu := u_pos
  have hu2 : u ≤ 1 / 1000 := by rw [u_val]; norm_num
  have hη1 := η_lt
  have hM := hb.pos
  have hNR : (N : ℝ) ≤ 2 ^ 50 := by exact_mod_cast hNN
  have hnR : (n : ℝ) ≤ N := by exact_mod_cast hn
  have hmR : (1 : ℝ) ≤ m := by exact_mod_cast hm
  have hmNR : (m : ℝ) ≤ N + 1 := by exact_mod_cast hmN
  have hN0 : (0 : ℝ) ≤ N := Nat.cast_nonneg N
  obtain ⟨fn, vn⟩ := ofNat_exact (n := n) (by omega)
  obtain ⟨fm, vm⟩ := ofNat_exact (n := m) (by omega)
  subst hD
  have hp0 : |val c * n| ≤ (N + 1) * M := by
    have h1 := abs_sub_abs_le_abs_sub (n * val c) S
    have h2 : (n : ℝ) * M ≤ N * M := mul_le_mul_of_nonneg_right hnR hM.le
    rw [mul_comm (val c)]
    linarith
  have hbig := hb.half (K := 4 * (N + 2)) (by linarith)
  have hMN : 0 ≤ (N : ℝ) * M := mul_nonneg hN0 hM.le
  have fp : Fin (mul c (ofNat n)) := by
    refine mul_fin fc fn ?_
    rw [vn, half_add]
    have : |val c * n| * (1 + u) ≤ (N + 1) * M * 2 := mul_le_mul hp0 (by linarith) (by linarith) (by positivity)
    linarith
  obtain ⟨_, _, hp⟩ := mul_err fp
  rw [vn] at hp
  have b1 : |val (mul c (ofNat n))| ≤ 2 * ((N + 1) * M) + 1 := by
    have h1 := abs_sub_abs_le_abs_sub (val (mul c (ofNat n))) (val c * n)
    have h2 : u * |val c * n| ≤ 1 * |val c * n| := mul_le_mul_of_nonneg_right (by linarith) (abs_nonneg _)
    linarith
  have b2 : |val (mul c (ofNat n)) + y| ≤ 2 * ((N + 2) * M) + 1 := by
    have h1 := abs_add_le (val (mul c (ofNat n))) y
    linarith
  generalize hpp : mul c (ofNat n) = p at *
  obtain ⟨fs, hs⟩ := hop p fp (by
    rw [half_add]
    have : |val p + y| * (1 + u) ≤ (2 * ((N + 2) * M) + 1) * (1 + 1 / 1000) := mul_le_mul b2 (by linarith) (by linarith) (by positivity)
    linarith)
  have b3 : |val (op p x)| ≤ (2 * ((N + 2) * M) + 1) * (1 + 1 / 1000) := by
    have h1 := abs_sub_abs_le_abs_sub (val (op p x)) (val p + y)
    have h2 : u * |val p + y| ≤ 1 / 1000 * |val p + y| := mul_le_mul_of_nonneg_right hu2 (abs_nonneg _)
    linarith
  have fd : Fin (div (op p x) (ofNat m)) := by
    refine div_fin fs fm (by rw [vm]; linarith) ?_
    rw [vm, half_add]
    have h1 : |val (op p x) / m| ≤ |val (op p x)| := by
      rw [abs_div, abs_of_pos (by linarith : (0 : ℝ) < m)]; exact div_le_self (abs_nonneg _) hmR
    have : |val (op p x) / m| * (1 + u) ≤ (2 * ((N + 2) * M) + 1) * (1 + 1 / 1000) * (1 + 1 / 1000) :=
      mul_le_mul (h1.trans b3) (by linarith) (by linarith) (by positivity)
    linarith
  refine ⟨fd, ?_⟩
  obtain ⟨_, _, hd⟩ := div_err fm fd
  rw [vm] at hd
  have h := mad_real hb hN0 hmR hmNR hp0 hy hp hs hd
  have e : (m : ℝ) * val (div (op p x) (ofNat m)) - (S + y) = (m * val (div (op p x) (ofNat m)) - (val c * n + y)) + (n * val c - S) := by ring
  rw [e]
  exact (abs_add_le _ _).trans (by linarith)

/-- A component after an addition. -/
theorem add_step {M : ℝ} {N n : Nat} {c x : F64} {S E : ℝ} (hb : Bound M) (hNN : N ≤ 2 ^ 50) (hn : n ≤ N)
    (fc : Fin c) (fx : Fin x) (hS : |S| ≤ n * M) (hx : |val x| ≤ M) (hE : |n * val c - S| ≤ E) (hEM : E ≤ M) :
    Fin (div (add (mul c (ofNat n)) x) (add (ofNat n) (ofNat 1))) ∧
    |((n + 1 : Nat) : ℝ) * val (div (add (mul c (ofNat n)) x) (add (ofNat n) (ofNat 1))) - (S + val x)| ≤ E + 4 * (N + 2) * u * M :=
  mad add (fun p fp h => ⟨add_fin fp fx h, (add_err (add_fin fp fx h)).2.2⟩) hb hNN hn (by omega) (by omega)
    (add_ofNat (by omega)) fc hS hx hE hEM

/-- A component after a removal. -/
theorem rm_step {M : ℝ} {N n : Nat} {c x : F64} {S E : ℝ} (hb : Bound M) (hNN : N ≤ 2 ^ 50) (hn : n ≤ N) (h2 : 1 < n)
    (fc : Fin c) (fx : Fin x) (hS : |S| ≤ n * M) (hx : |val x| ≤ M) (hE : |n * val c - S| ≤ E) (hEM : E ≤ M) :
    Fin (div (sub (mul c (ofNat n)) x) (ofNat (n - 1))) ∧
    |((n - 1 : Nat) : ℝ) * val (div (sub (mul c (ofNat n)) x) (ofNat (n - 1))) - (S - val x)| ≤ E + 4 * (N + 2) * u * M := by
  have := mad (y := - val x) (x := x) sub (fun p fp h => by
      rw [← sub_eq_add_neg] at *
      exact ⟨sub_fin fp fx h, (sub_err (sub_fin fp fx h)).2.2⟩) hb hNN hn (m := n - 1) (by omega) (by omega)
    rfl fc hS (by rw [abs_neg]; exact hx) hE hEM
  simpa only [← sub_eq_add_neg] using this

end F64
end Trypo
