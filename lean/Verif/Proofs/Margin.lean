import Verif.Model.EventLoop
import Mathlib.Tactic.Linarith
import Mathlib.Tactic.Ring

/-!
# The margin of the load balancer, computed with floats, is two fifths of the mean
-/

namespace Trypo
open EventLoop

theorem F64.ulp_dvd {q k : Nat} (h : q < 2 ^ (k + 53)) : F64.ulp q ∣ 2 ^ k := by
  unfold F64.ulp
  split
  · exact Nat.one_dvd _
  · rename_i hq
    refine Nat.pow_dvd_pow 2 ?_
    have : q.log2 < k + 53 := (Nat.log2_lt (by rintro rfl; exact hq (Nat.two_pow_pos _))).2 h
    omega

theorem F64.ulp_pos_margin (q : Nat) : 0 < F64.ulp q := by
  unfold F64.ulp; split
  · exact Nat.one_pos
  · exact Nat.two_pow_pos _

theorem F64.rneDiv_exact {a b : Nat} (hb : 0 < b) (h : b ∣ a) : F64.rneDiv a b = a / b := by
  unfold F64.rneDiv
  rw [Nat.mod_eq_zero_of_dvd h]
  simp [hb]

theorem F64.rneDiv_bounds (a b : Nat) : a / b ≤ F64.rneDiv a b ∧ F64.rneDiv a b ≤ a / b + 1 := by
  unfold F64.rneDiv
  simp only
  split
  · omega
  · split
    · omega
    · split <;> omega

theorem F64.mk_exact_margin {k e : Nat} (neg : Bool) (h : k < 2 ^ (e + 53)) (hd : 2 ^ e ∣ k) (ht : k < F64.TOP) : F64.mk neg k 1 = .fin neg k := by
  have hd' : F64.ulp k ∣ k := (F64.ulp_dvd h).trans hd
  have : F64.roundMag k 1 = some k := by
    unfold F64.roundMag
    simp only [Nat.div_one, Nat.one_mul]
    rw [F64.rneDiv_exact (F64.ulp_pos_margin _) hd', Nat.div_mul_cancel hd', if_pos ht]
  unfold F64.mk
  rw [this]

theorem F64.ofInt_exact {m : Nat} (h : m < 2 ^ 53) : F64.ofInt (m : Int) = .fin false (m * F64.UNIT) := by
  have gen : ∀ e, m * 2 ^ e < 2 ^ (e + 53) := by
    intro e
    rw [Nat.pow_add, Nat.mul_comm]
    exact Nat.mul_lt_mul_of_pos_left h (Nat.two_pow_pos _)
  have h3 : decide ((m : Int) < 0) = false := by simp
  have hu : F64.UNIT = 2 ^ 1074 := rfl
  have ht : m * F64.UNIT < F64.TOP := by
    rw [hu]
    exact lt_of_lt_of_le (gen 1074) (Nat.pow_le_pow_right (by decide) (by decide))
  unfold F64.ofInt
  rw [h3, Int.natAbs_natCast]
  exact F64.mk_exact_margin (e := 1074) false (by rw [hu]; exact gen 1074) (by rw [hu]; exact Nat.dvd_mul_left _ _) ht

theorem F64.mul_fin_margin (a b : Bool) (k l : Nat) : F64.mul (.fin a k) (.fin b l) = F64.mk (a != b) (k * l) F64.UNIT := rfl

theorem toInt_mk_false (a b : Nat) : 0 ≤ toInt (F64.mk false a b) := by
  unfold F64.mk
  cases F64.roundMag a b with
  | none => exact le_refl _
  | some k =>
    simp only [toInt, Bool.false_eq_true, if_false]
    exact Int.natCast_nonneg _

theorem margin_aux (x : F64) (k : Nat) (h : x = .inf false ∨ ∃ k, x = .fin false k) : 0 ≤ toInt (F64.mul x (.fin false k)) := by
  rcases h with rfl | ⟨l, rfl⟩
  · have : F64.mul (.inf false) (.fin false k) = if k = 0 then .nan else .inf (false != false) := rfl
    rw [this]
    split <;> exact le_refl _
  · rw [F64.mul_fin_margin]; exact toInt_mk_false _ _

theorem mk_false (a b : Nat) : F64.mk false a b = .inf false ∨ ∃ k, F64.mk false a b = .fin false k := by
  unfold F64.mk
  cases F64.roundMag a b with
  | none => exact .inl rfl
  | some k => exact .inr ⟨k, rfl⟩

theorem ofInt_nonneg {z : Int} (h : 0 ≤ z) : F64.ofInt z = .inf false ∨ ∃ k, F64.ofInt z = .fin false k := by
  have hd : decide (z < 0) = false := by simpa using h
  unfold F64.ofInt
  rw [hd]
  exact mk_false _ _

theorem margin_nonneg {mean : Int} (h : 0 ≤ mean) : 0 ≤ margin mean := by
  have hm : margin mean = toInt (F64.mul (F64.ofInt mean) c04) := rfl
  obtain ⟨k, hk⟩ : ∃ k, c04 = .fin false k := ⟨_, rfl⟩
  rw [hm, hk]
  exact margin_aux _ _ (ofInt_nonneg h)

/-- The product of `m` and `0.4`, rounded, in terms of `U = 2^54 * P`. -/
theorem round_two_fifths {m P U s q N : Nat} (hP : 0 < P) (hm : m < 2 ^ 50) (hU : U = 2 ^ 54 * P) (hN : N = m * (7205759403792794 * P))
    (hs : 0 < s) (hsd : s ∣ U) (hsle : s ≤ 2 ^ 50 * P) (b1 : N / s ≤ q) (b2 : q ≤ N / s + 1) :
    (2 * m / 5) * U ≤ q * s ∧ q * s < (2 * m / 5 + 1) * U := by
  have hle1 : (2 * m / 5) * U ≤ N := by
    have : 5 * ((2 * m / 5) * U) ≤ 5 * N := by
      have h5 : 5 * (2 * m / 5) ≤ 2 * m := by omega
      calc 5 * ((2 * m / 5) * U) = (5 * (2 * m / 5)) * U := by ring
        _ ≤ (2 * m) * U := Nat.mul_le_mul_right _ h5
        _ = m * (36028797018963968 * P) := by rw [hU]; ring
        _ ≤ m * (36028797018963970 * P) := Nat.mul_le_mul_left _ (Nat.mul_le_mul_right _ (by decide))
        _ = 5 * N := by rw [hN]; ring
    omega
  constructor
  · obtain ⟨x, hx⟩ := hsd
    have h6 : (2 * m / 5) * U = ((2 * m / 5) * x) * s := by rw [hx]; ring
    rw [h6] at hle1 ⊢
    exact Nat.mul_le_mul_right _ (((Nat.le_div_iff_mul_le hs).2 hle1).trans b1)
  · have h7 : q * s ≤ N + s := by
      calc q * s ≤ (N / s + 1) * s := Nat.mul_le_mul_right _ b2
        _ = N / s * s + s := by ring
        _ ≤ N + s := Nat.add_le_add_right (Nat.div_mul_le_self _ _) _
    have h8 : 5 * (N + s) < 5 * ((2 * m / 5 + 1) * U) := by
      have h9 : 2 * m + 1 ≤ 5 * (2 * m / 5 + 1) := by omega
      have h10 : (2 * m + 1) * U ≤ 5 * ((2 * m / 5 + 1) * U) := by
        rw [← Nat.mul_assoc]; exact Nat.mul_le_mul_right _ h9
      refine lt_of_lt_of_le ?_ h10
      have e5 : 5 * N = (36028797018963970 * m) * P := by rw [hN]; ring
      have e6 : (2 * m + 1) * U = (36028797018963968 * m + 18014398509481984) * P := by rw [hU]; ring
      rw [Nat.mul_add, e5, e6]
      have h11 : 5 * s ≤ 5629499534213120 * P := by omega
      calc 36028797018963970 * m * P + 5 * s ≤ 36028797018963970 * m * P + 5629499534213120 * P := by omega
        _ = (36028797018963970 * m + 5629499534213120) * P := by ring
        _ < (36028797018963968 * m + 18014398509481984) * P := by
          refine Nat.mul_lt_mul_of_pos_right ?_ hP
          omega
    omega

theorem toInt_mk_of {num k : Nat} (hr : F64.roundMag num F64.UNIT = some k) {j : Nat} (h1 : j * F64.UNIT ≤ k) (h2 : k < (j + 1) * F64.UNIT) :
    toInt (F64.mk false num F64.UNIT) = j := by
  unfold F64.mk
  rw [hr]
  simp only [toInt, Bool.false_eq_true, if_false]
  rw [Nat.div_eq_of_lt_le h1 h2]

theorem pow_facts (P : Nat) (hP : P = 2 ^ 1020) : F64.UNIT = 2 ^ 54 * P ∧ (2 : Nat) ^ 1070 = 2 ^ 50 * P ∧ (2 : Nat) ^ (1070 + 53) = 2 ^ 103 * P := by
  have gen : ∀ a b e : Nat, b = a + e → P = 2 ^ e → (2 : Nat) ^ b = 2 ^ a * P := by
    intro a b e h1 h2
    rw [h1, h2, Nat.pow_add]
  have hu : F64.UNIT = 2 ^ 1074 := rfl
  rw [hu]
  exact ⟨gen 54 1074 1020 rfl hP, gen 50 1070 1020 rfl hP, gen 103 (1070 + 53) 1020 rfl hP⟩

theorem top_facts (k : Nat) (h : k < 2 ^ 51) : k * F64.UNIT < F64.TOP := by
  have gen : ∀ e, k * 2 ^ e < 2 ^ (e + 51) := by
    intro e
    rw [Nat.pow_add, Nat.mul_comm]
    exact Nat.mul_lt_mul_of_pos_left h (Nat.two_pow_pos _)
  have hu : F64.UNIT = 2 ^ 1074 := rfl
  rw [hu]
  exact lt_of_lt_of_le (gen 1074) (Nat.pow_le_pow_right (by decide) (by decide))

theorem toInt_two_fifths {m P : Nat} (hP : P = 2 ^ 1020) (hm : m < 2 ^ 50) :
    toInt (F64.mk false (m * F64.UNIT * (7205759403792794 * P)) F64.UNIT) = ((2 * m / 5 : Nat) : Int) := by
  have hPpos : 0 < P := by rw [hP]; exact Nat.two_pow_pos _
  obtain ⟨f1, f2, f3⟩ := pow_facts P hP
  have hUpos : 0 < F64.UNIT := Nat.two_pow_pos _
  clear hP
  have ht : (2 * m / 5 + 1) * F64.UNIT < F64.TOP := top_facts _ (by omega)
  generalize hN : m * (7205759403792794 * P) = N
  have e1 : m * F64.UNIT * (7205759403792794 * P) = F64.UNIT * N := by rw [← hN]; ring
  rw [e1]
  have hNlt : N < 2 ^ (1070 + 53) := by
    rw [f3, ← hN]
    refine lt_of_lt_of_le (Nat.mul_lt_mul_of_pos_right hm (Nat.mul_pos (by decide) hPpos)) ?_
    rw [← Nat.mul_assoc]
    exact Nat.mul_le_mul_right _ (by decide)
  have hsd0 : F64.ulp N ∣ 2 ^ 1070 := F64.ulp_dvd hNlt
  have hsle : F64.ulp N ≤ 2 ^ 50 * P := f2 ▸ Nat.le_of_dvd (Nat.two_pow_pos _) hsd0
  have hsd : F64.ulp N ∣ F64.UNIT := hsd0.trans ⟨16, by rw [f1, f2]; ring⟩
  obtain ⟨b1, b2⟩ := F64.rneDiv_bounds (F64.UNIT * N) (F64.UNIT * F64.ulp N)
  rw [Nat.mul_div_mul_left _ _ hUpos] at b1 b2
  obtain ⟨c1, c2⟩ := round_two_fifths hPpos hm f1 hN.symm (F64.ulp_pos_margin N) hsd hsle b1 b2
  refine toInt_mk_of (k := F64.rneDiv (F64.UNIT * N) (F64.UNIT * F64.ulp N) * F64.ulp N) ?_ c1 c2
  unfold F64.roundMag
  rw [Nat.mul_div_cancel_left _ hUpos]
  exact if_pos (lt_trans c2 ht)

/-- For means below `2^50` the rounding errors do not show. -/
theorem margin_eq {mean : Int} (h0 : 0 ≤ mean) (h1 : mean < 2 ^ 50) : margin mean = 2 * mean / 5 := by
  obtain ⟨m, rfl⟩ := Int.eq_ofNat_of_zero_le h0
  have hm : m < 2 ^ 50 := by exact_mod_cast h1
  unfold margin
  rw [F64.ofInt_exact (lt_trans hm (by decide))]
  unfold c04
  rw [F64.mul_fin_margin]
  have := toInt_two_fifths (m := m) rfl hm
  rw [show (false != false) = false from rfl]
  rw [this]
  push_cast
  rfl

end Trypo
