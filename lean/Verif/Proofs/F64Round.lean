import Verif.Spec.Float
import Mathlib.Analysis.Real.Sqrt
import Mathlib.Tactic.Ring
import Mathlib.Tactic.Linarith
import Mathlib.Tactic.FieldSimp
import Mathlib.Tactic.Positivity
import Mathlib.Tactic.GCongr

/-!
# The rounding of float64 operations

The usual model of floating point arithmetic, proved of `F64`: a finite result differs from the exact one by at most `u` times the exact
one, plus `η` where results below the normal range can occur.
-/

namespace Trypo
namespace F64

set_option exponentiation.threshold 2200 in
theorem unit_def : UNIT = 2 ^ 1074 := rfl
set_option exponentiation.threshold 2200 in
theorem top_def : TOP = 2 ^ 2098 := rfl
theorem unit_pos : 0 < UNIT := by rw [unit_def]; positivity
theorem unitR_pos : (0 : ℝ) < (UNIT : ℝ) := by exact_mod_cast unit_pos
theorem u_pos : 0 < u := by unfold u; positivity
theorem η_pos : 0 < η := by unfold η; have := unitR_pos; positivity

attribute [local irreducible] UNIT TOP

theorem rneDiv_bound (a : Nat) {b : Nat} (hb : 0 < b) : 2 * a ≤ 2 * (rneDiv a b * b) + b ∧ 2 * (rneDiv a b * b) ≤ 2 * a + b := by
  have h := Nat.div_add_mod a b
  have hr := Nat.mod_lt a hb
  unfold rneDiv
  dsimp only
  generalize a / b = q at *
  generalize a % b = r at *
  have e : (q + 1) * b = b * q + b := by ring
  have e' : q * b = b * q := by ring
  split
  · rw [e']; omega
  · split
    · rw [e]; omega
    · split
      · rw [e']; omega
      · rw [e]; omega

theorem ulp_pos (q : Nat) : 0 < ulp q := by
  unfold ulp; split <;> positivity

theorem ulp_le (q : Nat) : ulp q = 1 ∨ ulp q * 2 ^ 52 ≤ q := by
  unfold ulp
  split
  · exact .inl rfl
  · rename_i h
    right
    have hq : q ≠ 0 := by rintro rfl; exact h (by positivity)
    have hl : 53 ≤ Nat.log2 q := (Nat.le_log2 hq).2 (by omega)
    rw [← pow_add, show Nat.log2 q - 52 + 52 = Nat.log2 q by omega]
    exact Nat.log2_self_le hq

theorem roundMag_some {num den k : Nat} (h : roundMag num den = some k) :
    k = rneDiv num (den * ulp (num / den)) * ulp (num / den) ∧ k < TOP := by
  unfold roundMag at h
  dsimp only at h
  split at h
  · rename_i h1
    cases h
    exact ⟨rfl, h1⟩
  · cases h

theorem rounded_ulp {num den k : Nat} (hd : 0 < den) (hk : k = rneDiv num (den * ulp (num / den)) * ulp (num / den)) :
    |(k : ℝ) - num / den| ≤ (ulp (num / den) : ℝ) / 2 := by
  have hp := ulp_pos (num / den)
  generalize ulp (num / den) = s at *
  obtain ⟨b1, b2⟩ := rneDiv_bound num (b := den * s) (by positivity)
  generalize rneDiv num (den * s) = r at *
  have hd' : (0 : ℝ) < den := by exact_mod_cast hd
  have c1 : (2 * num : ℝ) ≤ 2 * (r * (den * s)) + den * s := by exact_mod_cast b1
  have c2 : (2 * (r * (den * s)) : ℝ) ≤ 2 * num + den * s := by exact_mod_cast b2
  have hk' : (k : ℝ) = r * s := by rw [hk]; push_cast; ring
  rw [hk', abs_le]
  constructor
  · rw [neg_le_sub_iff_le_add, div_le_iff₀ hd']
    nlinarith
  · rw [sub_le_iff_le_add, ← sub_le_iff_le_add', le_div_iff₀ hd']
    nlinarith

/-- The error of rounding is at most half an ulp. -/
theorem roundMag_ulp {num den k : Nat} (hd : 0 < den) (h : roundMag num den = some k) :
    |(k : ℝ) - num / den| ≤ (ulp (num / den) : ℝ) / 2 := rounded_ulp hd (roundMag_some h).1

theorem rounded_err {num den k : Nat} (hd : 0 < den) (hk : k = rneDiv num (den * ulp (num / den)) * ulp (num / den)) :
    |(k : ℝ) - num / den| ≤ u * (num / den) + 1 / 2 := by
  refine (rounded_ulp hd hk).trans ?_
  have h0 : (0 : ℝ) ≤ num / den := by positivity
  have hq : ((num / den : Nat) : ℝ) ≤ num / den := by
    rw [le_div_iff₀ (by exact_mod_cast hd)]; exact_mod_cast Nat.div_mul_le_self num den
  rcases ulp_le (num / den) with h1 | h1
  · rw [h1]; have := mul_nonneg u_pos.le h0; push_cast; linarith
  · have h2 : (ulp (num / den) : ℝ) * 2 ^ 52 ≤ ((num / den : Nat) : ℝ) := by exact_mod_cast h1
    have : u * (num / den) = (num / den : ℝ) / 2 ^ 53 := by unfold u; ring
    rw [this]
    have : (ulp (num / den) : ℝ) / 2 ≤ (num / den : ℝ) / 2 ^ 53 := by
      rw [div_le_div_iff₀ (by norm_num) (by norm_num)]
      nlinarith
    linarith

theorem roundMag_err {num den k : Nat} (hd : 0 < den) (h : roundMag num den = some k) :
    |(k : ℝ) - num / den| ≤ u * (num / den) + 1 / 2 := rounded_err hd (roundMag_some h).1

/-- Rounding an integer number of units is exact below `2^53`, so that there is no absolute error. -/
theorem roundMag_err_one {num k : Nat} (h : roundMag num 1 = some k) : |(k : ℝ) - num| ≤ u * num := by
  rcases ulp_le (num / 1) with h1 | h1
  · obtain ⟨hk, _⟩ := roundMag_some h
    rw [h1] at hk
    have : rneDiv num (1 * 1) = num := by unfold rneDiv; simp [Nat.mod_one]
    rw [hk, this]
    simp only [mul_one, sub_self, abs_zero]
    have := u_pos
    positivity
  · have h0 := roundMag_ulp one_pos h
    simp only [Nat.div_one, Nat.cast_one, div_one] at h0 h1
    refine h0.trans ?_
    have h2 : (ulp num : ℝ) * 2 ^ 52 ≤ (num : ℝ) := by exact_mod_cast h1
    have : u * num = (num : ℝ) / 2 ^ 53 := by unfold u; ring
    rw [this, div_le_div_iff₀ (by norm_num) (by norm_num)]
    nlinarith

theorem val_fin (s : Bool) (k : Nat) : val (fin s k) = (if s then -(k : ℝ) else (k : ℝ)) / (UNIT : ℝ) := by
  unfold val key
  cases s <;> simp

theorem abs_val_fin (s : Bool) (k : Nat) : |val (fin s k)| = (k : ℝ) / (UNIT : ℝ) := by
  rw [val_fin]
  have := unitR_pos
  rw [abs_div, abs_of_pos this]
  cases s <;> simp

theorem mk_fin {s : Bool} {num den : Nat} (h : Fin (mk s num den)) : ∃ k, roundMag num den = some k ∧ mk s num den = fin s k := by
  unfold mk at *
  cases hr : roundMag num den with
  | none => rw [hr] at h; obtain ⟨_, _, h⟩ := h; cases h
  | some k => exact ⟨k, rfl, rfl⟩

/-- The value with the given sign. -/
noncomputable def sgn (s : Bool) (x : ℝ) : ℝ := if s then -x else x

theorem abs_sgn (s : Bool) (x : ℝ) : |sgn s x| = |x| := by unfold sgn; cases s <;> simp
theorem sgn_sub (s : Bool) (x y : ℝ) : sgn s x - sgn s y = sgn s (x - y) := by unfold sgn; cases s <;> simp; ring

theorem val_mk {s : Bool} {num den : Nat} (hd : 0 < den) (h : Fin (mk s num den)) :
    |val (mk s num den) - sgn s (num / den / UNIT)| ≤ u * |sgn s (num / den / UNIT)| + η := by
  obtain ⟨k, hk, e⟩ := mk_fin h
  have hU := unitR_pos
  have h1 := roundMag_err hd hk
  have e1 : val (mk s num den) = sgn s (k / UNIT) := by rw [e, val_fin]; unfold sgn; cases s <;> simp [neg_div]
  rw [e1, sgn_sub, abs_sgn, abs_sgn, ← sub_div, abs_div, abs_of_pos hU]
  have h0 : (0 : ℝ) ≤ num / den := by positivity
  rw [abs_of_nonneg (by positivity : (0 : ℝ) ≤ num / den / UNIT), div_le_iff₀ hU]
  have : (u * (num / den / UNIT) + η) * UNIT = u * (num / den) + 1 / 2 := by
    unfold η; field_simp
  rw [this]; exact h1

theorem val_mk_one {s : Bool} {num : Nat} (h : Fin (mk s num 1)) :
    |val (mk s num 1) - sgn s (num / UNIT)| ≤ u * |sgn s (num / UNIT)| := by
  obtain ⟨k, hk, e⟩ := mk_fin h
  have hU := unitR_pos
  have h1 := roundMag_err_one hk
  have e1 : val (mk s num 1) = sgn s (k / UNIT) := by rw [e, val_fin]; unfold sgn; cases s <;> simp [neg_div]
  rw [e1, sgn_sub, abs_sgn, abs_sgn, ← sub_div, abs_div, abs_of_pos hU]
  rw [abs_of_nonneg (by positivity : (0 : ℝ) ≤ num / UNIT), div_le_iff₀ hU, mul_assoc, div_mul_cancel₀ _ hU.ne']
  exact h1

theorem val_negate (x : F64) : val (negate x) = - val x := by
  cases x with
  | nan => simp [negate, val]
  | inf s => simp [negate, val]
  | fin s k => simp only [negate, val_fin]; cases s <;> simp [neg_div]

theorem fin_negate {x : F64} : Fin (negate x) ↔ Fin x := by
  cases x with
  | nan => simp [negate, Fin]
  | inf s => simp [negate, Fin]
  | fin s k => simp [negate, Fin]

/-- Addition: the operands of a finite result are finite, and the relative error is at most `u`. -/
theorem add_err {x y : F64} (h : Fin (add x y)) : Fin x ∧ Fin y ∧ |val (add x y) - (val x + val y)| ≤ u * |val x + val y| := by
  have hU := unitR_pos
  rcases x with _ | a | ⟨a, ka⟩ <;> rcases y with _ | b | ⟨b, kb⟩
  case fin.fin =>
    refine ⟨⟨_, _, rfl⟩, ⟨_, _, rfl⟩, ?_⟩
    unfold add at h ⊢
    dsimp only at h ⊢
    split at h
    · rename_i hab
      rw [if_pos hab]
      subst hab
      have := val_mk_one h
      have e : sgn a (((ka + kb : Nat) : ℝ) / UNIT) = val (fin a ka) + val (fin a kb) := by
        rw [val_fin, val_fin]; unfold sgn; cases a <;> simp <;> ring
      rwa [e] at this
    · rename_i hab
      rw [if_neg hab]
      split at h
      · rename_i hk
        rw [if_pos hk]
        subst hk
        have e : val (fin a ka) + val (fin b ka) = 0 := by
          rw [val_fin, val_fin]; cases a <;> cases b <;> simp at hab ⊢ <;> ring
        rw [e, val_fin]; simp
      · rename_i hk
        rw [if_neg hk]
        split at h
        · rename_i hlt
          rw [if_pos hlt]
          have := val_mk_one h
          have e : sgn a (((ka - kb : Nat) : ℝ) / UNIT) = val (fin a ka) + val (fin b kb) := by
            rw [val_fin, val_fin, Nat.cast_sub hlt.le]; unfold sgn; cases a <;> cases b <;> simp at hab ⊢ <;> ring
          rwa [e] at this
        · rename_i hlt
          rw [if_neg hlt]
          have := val_mk_one h
          have e : sgn b (((kb - ka : Nat) : ℝ) / UNIT) = val (fin a ka) + val (fin b kb) := by
            rw [val_fin, val_fin, Nat.cast_sub (by omega)]; unfold sgn; cases a <;> cases b <;> simp at hab ⊢ <;> ring
          rwa [e] at this
  all_goals
    exfalso
    obtain ⟨s, k, h⟩ := h
    simp only [add] at h
    try split at h
    all_goals cases h

theorem sub_err {x y : F64} (h : Fin (sub x y)) : Fin x ∧ Fin y ∧ |val (sub x y) - (val x - val y)| ≤ u * |val x - val y| := by
  obtain ⟨h1, h2, h3⟩ := add_err h
  rw [val_negate] at h3
  exact ⟨h1, fin_negate.1 h2, by rw [sub_eq_add_neg (val x)]; exact h3⟩

/-- Multiplication. -/
theorem mul_err {x y : F64} (h : Fin (mul x y)) : Fin x ∧ Fin y ∧ |val (mul x y) - val x * val y| ≤ u * |val x * val y| + η := by
  have hU := unitR_pos
  rcases x with _ | a | ⟨a, ka⟩ <;> rcases y with _ | b | ⟨b, kb⟩
  case fin.fin =>
    refine ⟨⟨_, _, rfl⟩, ⟨_, _, rfl⟩, ?_⟩
    have := val_mk unit_pos h
    have e : sgn (a != b) (((ka * kb : Nat) : ℝ) / UNIT / UNIT) = val (fin a ka) * val (fin b kb) := by
      rw [val_fin, val_fin]; push_cast; unfold sgn; cases a <;> cases b <;> simp <;> field_simp
    rwa [e] at this
  all_goals
    exfalso
    obtain ⟨s, k, h⟩ := h
    simp only [mul] at h
    try split at h
    all_goals cases h

/-- Division by a finite number. -/
theorem div_err {x y : F64} (hy : Fin y) (h : Fin (div x y)) :
    Fin x ∧ val y ≠ 0 ∧ |val (div x y) - val x / val y| ≤ u * |val x / val y| + η := by
  have hU := unitR_pos
  obtain ⟨b, kb, rfl⟩ := hy
  rcases x with _ | a | ⟨a, ka⟩
  · obtain ⟨s, k, h⟩ := h; simp only [div] at h; cases h
  · obtain ⟨s, k, h⟩ := h; simp only [div] at h; cases h
  · refine ⟨⟨_, _, rfl⟩, ?_⟩
    by_cases hk : kb = 0
    · exfalso
      obtain ⟨s, k, h⟩ := h
      simp only [div, hk, if_true] at h
      split at h <;> cases h
    · have hkb : (0 : ℝ) < kb := by exact_mod_cast Nat.pos_of_ne_zero hk
      have e0 : div (fin a ka) (fin b kb) = mk (a != b) (ka * UNIT) kb := by simp only [div, hk, if_false]
      rw [e0] at h ⊢
      have := val_mk (Nat.pos_of_ne_zero hk) h
      have e : sgn (a != b) (((ka * UNIT : Nat) : ℝ) / kb / UNIT) = val (fin a ka) / val (fin b kb) := by
        rw [val_fin, val_fin]; push_cast; unfold sgn; cases a <;> cases b <;> simp <;> field_simp
      rw [e] at this
      refine ⟨?_, this⟩
      rw [← abs_pos, abs_val_fin]; positivity

/-! ### When results are finite -/

theorem top_eq : (TOP : ℝ) / (UNIT : ℝ) = 2 ^ 1024 := by
  have : TOP = 2 ^ 1024 * UNIT := by
    rw [top_def, unit_def, ← pow_add]
  rw [this, Nat.cast_mul, mul_div_assoc, div_self unitR_pos.ne', mul_one]
  simp only [Nat.cast_pow, Nat.cast_ofNat]

theorem mk_finite {s : Bool} {num den : Nat} (hd : 0 < den) (h : (num / den / UNIT : ℝ) * (1 + u) + η < 2 ^ 1024) : Fin (mk s num den) := by
  have hU := unitR_pos
  unfold mk
  cases hr : roundMag num den with
  | some k => exact ⟨_, _, rfl⟩
  | none =>
    exfalso
    unfold roundMag at hr
    dsimp only at hr
    split at hr
    · cases hr
    · rename_i hk
      have e := rounded_err (k := rneDiv num (den * ulp (num / den)) * ulp (num / den)) hd rfl
      have hk' : (TOP : ℝ) ≤ ((rneDiv num (den * ulp (num / den)) * ulp (num / den) : Nat) : ℝ) := by exact_mod_cast not_lt.1 hk
      have e2 := (abs_le.1 e).2
      rw [← top_eq, lt_div_iff₀ hU] at h
      have e3 : ((num / den / UNIT : ℝ) * (1 + u) + η) * UNIT = num / den * (1 + u) + 1 / 2 := by unfold η; field_simp
      rw [e3] at h
      nlinarith

theorem η_lt : η < 1 := by
  unfold η
  rw [div_lt_one (by have := unitR_pos; positivity)]
  have : (1 : ℝ) ≤ UNIT := by exact_mod_cast unit_pos
  linarith

theorem u_lt : u < 1 := by unfold u; norm_num

theorem add_fin {x y : F64} (hx : Fin x) (hy : Fin y) (h : |val x + val y| * (1 + u) + η < 2 ^ 1024) : Fin (add x y) := by
  have hU := unitR_pos
  obtain ⟨a, ka, rfl⟩ := hx
  obtain ⟨b, kb, rfl⟩ := hy
  rw [val_fin, val_fin] at h
  unfold add
  dsimp only
  split
  · rename_i hab
    subst hab
    refine mk_finite one_pos ?_
    convert h using 3
    rw [← add_div, abs_div, abs_of_pos hU]
    push_cast
    rw [div_one]
    congr 1
    have h1 : (0 : ℝ) ≤ ka := by positivity
    have h2 : (0 : ℝ) ≤ kb := by positivity
    cases a
    · simp only [Bool.false_eq_true, if_false]; rw [abs_of_nonneg (by linarith)]
    · simp only [if_true]; rw [abs_of_nonpos (by linarith)]; ring
  · rename_i hab
    split
    · exact ⟨_, _, rfl⟩
    · split
      · rename_i hlt
        refine mk_finite one_pos ?_
        convert h using 3
        rw [← add_div, abs_div, abs_of_pos hU, Nat.cast_sub hlt.le]
        push_cast
        rw [div_one]
        congr 1
        have h1 : (kb : ℝ) ≤ ka := by exact_mod_cast hlt.le
        cases a <;> cases b <;> simp only [Bool.false_eq_true, if_false, if_true, not_true] at hab ⊢
        · rw [abs_of_nonneg (by linarith)]; ring
        · rw [abs_of_nonpos (by linarith)]; ring
      · rename_i hlt
        refine mk_finite one_pos ?_
        convert h using 3
        rw [← add_div, abs_div, abs_of_pos hU, Nat.cast_sub (by omega)]
        push_cast
        rw [div_one]
        congr 1
        have h1 : (ka : ℝ) ≤ kb := by exact_mod_cast not_lt.1 hlt
        cases a <;> cases b <;> simp only [Bool.false_eq_true, if_false, if_true, not_true] at hab ⊢
        · rw [abs_of_nonpos (by linarith)]; ring
        · rw [abs_of_nonneg (by linarith)]; ring

theorem sub_fin {x y : F64} (hx : Fin x) (hy : Fin y) (h : |val x - val y| * (1 + u) + η < 2 ^ 1024) : Fin (sub x y) :=
  add_fin hx (fin_negate.2 hy) (by rw [val_negate]; rwa [← sub_eq_add_neg])

theorem mul_fin {x y : F64} (hx : Fin x) (hy : Fin y) (h : |val x * val y| * (1 + u) + η < 2 ^ 1024) : Fin (mul x y) := by
  obtain ⟨a, ka, rfl⟩ := hx
  obtain ⟨b, kb, rfl⟩ := hy
  refine mk_finite unit_pos ?_
  rw [abs_mul, abs_val_fin, abs_val_fin] at h
  convert h using 3
  push_cast
  ring

theorem div_fin {x y : F64} (hx : Fin x) (hy : Fin y) (h0 : val y ≠ 0) (h : |val x / val y| * (1 + u) + η < 2 ^ 1024) : Fin (div x y) := by
  have hU := unitR_pos
  obtain ⟨a, ka, rfl⟩ := hx
  obtain ⟨b, kb, rfl⟩ := hy
  have hk : kb ≠ 0 := by rintro rfl; apply h0; rw [val_fin]; simp
  have e0 : div (fin a ka) (fin b kb) = mk (a != b) (ka * UNIT) kb := by simp only [div, hk, if_false]
  have hkb : (kb : ℝ) ≠ 0 := by exact_mod_cast hk
  rw [e0]
  refine mk_finite (Nat.pos_of_ne_zero hk) ?_
  rw [abs_div, abs_val_fin, abs_val_fin] at h
  convert h using 3
  push_cast
  field_simp

/-! ### Square roots -/

theorem isqrtLoop_spec (n : Nat) : ∀ i r, r * r ≤ n → n < (r + 2 ^ i) * (r + 2 ^ i) →
    isqrtLoop n i r * isqrtLoop n i r ≤ n ∧ n < (isqrtLoop n i r + 1) * (isqrtLoop n i r + 1)
  | 0, r, h1, h2 => by simpa [isqrtLoop] using ⟨h1, h2⟩
  | i + 1, r, h1, h2 => by
    unfold isqrtLoop
    split
    · rename_i h
      refine isqrtLoop_spec n i _ h ?_
      rwa [show r + 2 ^ i + 2 ^ i = r + 2 ^ (i + 1) by ring]
    · rename_i h
      exact isqrtLoop_spec n i _ h1 (by omega)

theorem isqrt_spec (n : Nat) : isqrt n * isqrt n ≤ n ∧ n < (isqrt n + 1) * (isqrt n + 1) := by
  unfold isqrt
  refine isqrtLoop_spec n _ 0 (by omega) ?_
  rw [Nat.zero_add, ← pow_add]
  refine lt_of_lt_of_le Nat.lt_log2_self (Nat.pow_le_pow_right (by omega) (by omega))

/-- The square root of a finite non-negative number. -/
theorem sqrt_err {x : F64} (h : Fin x) (h0 : 0 ≤ val x) :
    Fin (sqrt x) ∧ 0 ≤ val (sqrt x) ∧ |val (sqrt x) - Real.sqrt (val x)| ≤ u * Real.sqrt (val x) := by
  have hU := unitR_pos
  obtain ⟨s, k, rfl⟩ := h
  by_cases hk : k = 0
  · subst hk
    have e : sqrt (fin s 0) = fin s 0 := rfl
    have e2 : val (fin s 0) = 0 := by rw [val_fin]; simp
    rw [e, e2]
    exact ⟨⟨_, _, rfl⟩, le_rfl, by simp⟩
  · have hkp : (0 : ℝ) < k := by exact_mod_cast Nat.pos_of_ne_zero hk
    have hs : s = false := by
      cases s
      · rfl
      · exfalso
        rw [val_fin] at h0
        simp only [if_true, neg_div, Left.nonneg_neg_iff] at h0
        have : (0 : ℝ) < k / UNIT := by positivity
        linarith
    subst hs
    have e : sqrt (fin false k) = (let n := k * UNIT
      let u := ulp (isqrt n)
      let y := isqrt (n / (u * u))
      if (2 * y + 1) * (2 * y + 1) * (u * u) < 4 * n then fin false ((y + 1) * u) else fin false (y * u)) := by
      simp only [sqrt, hk, if_false, Bool.false_eq_true]
    have hn : 2 ^ 1074 ≤ k * UNIT := by
      rw [unit_def]; exact Nat.le_mul_of_pos_left _ (Nat.pos_of_ne_zero hk)
    have hv : val (fin false k) = ((k * UNIT : Nat) : ℝ) / (UNIT * UNIT) := by
      rw [val_fin]; simp only [Bool.false_eq_true, if_false]; push_cast; field_simp
    have hv2 : Real.sqrt (val (fin false k)) = Real.sqrt ((k * UNIT : Nat) : ℝ) / UNIT := by
      rw [hv, Real.sqrt_div (by positivity), Real.sqrt_mul_self hU.le]
    rw [e, hv2]
    generalize k * UNIT = n at *
    dsimp only
    obtain ⟨i1, i2⟩ := isqrt_spec n
    generalize isqrt n = q at *
    have hq : 2 ^ 53 ≤ q := by
      by_contra hlt
      have : (q + 1) * (q + 1) ≤ 2 ^ 53 * 2 ^ 53 := Nat.mul_le_mul (not_le.1 hlt) (not_le.1 hlt)
      rw [← pow_add] at this
      have h3 : (2 : Nat) ^ (53 + 53) ≤ 2 ^ 1074 := Nat.pow_le_pow_right Nat.two_pos (by clear * -; decide)
      exact lt_irrefl _ (lt_of_lt_of_le i2 (this.trans (h3.trans hn)))
    have hul : ulp q * 2 ^ 52 ≤ q := by
      rcases ulp_le q with h | h
      · rw [h]; omega
      · exact h
    have hup := ulp_pos q
    generalize ulp q = w at *
    obtain ⟨j1, j2⟩ := isqrt_spec (n / (w * w))
    generalize isqrt (n / (w * w)) = y at *
    have hw : 0 < w * w := by positivity
    have k1 : y * y * (w * w) ≤ n := le_trans (Nat.mul_le_mul_right _ j1) (Nat.div_mul_le_self _ _)
    have k2 : n < (y + 1) * (y + 1) * (w * w) := by
      have := (Nat.div_lt_iff_lt_mul hw).1 j2
      exact this
    set R := Real.sqrt (n : ℝ) with hR
    have hR2 : R * R = n := Real.mul_self_sqrt (by positivity)
    have hR0 : 0 ≤ R := Real.sqrt_nonneg _
    have hwR : (0 : ℝ) < w := by exact_mod_cast hup
    have l1 : (y : ℝ) * w ≤ R := by
      apply Real.le_sqrt_of_sq_le
      have : ((y * y * (w * w) : Nat) : ℝ) ≤ n := by exact_mod_cast k1
      push_cast at this; nlinarith
    have l2 : R ≤ (y + 1 : ℝ) * w := by
      rw [hR, Real.sqrt_le_left (by positivity)]
      have : ((n : Nat) : ℝ) ≤ (((y + 1) * (y + 1) * (w * w) : Nat) : ℝ) := by exact_mod_cast k2.le
      push_cast at this; nlinarith
    have l3 : (w : ℝ) / 2 ≤ u * R := by
      have hqR : (q : ℝ) ≤ R := by
        apply Real.le_sqrt_of_sq_le
        have : ((q * q : Nat) : ℝ) ≤ n := by exact_mod_cast i1
        push_cast at this; nlinarith
      have : (w : ℝ) * 2 ^ 52 ≤ q := by exact_mod_cast hul
      have e : u * R = R / 2 ^ 53 := by unfold u; ring
      rw [e, div_le_div_iff₀ (by norm_num) (by norm_num)]
      nlinarith
    have fin_case : ∀ z : Nat, |(z : ℝ) - R| ≤ w / 2 → Fin (fin false z) ∧ 0 ≤ val (fin false z) ∧
        |val (fin false z) - R / UNIT| ≤ u * (R / UNIT) := by
      intro z hz
      refine ⟨⟨_, _, rfl⟩, by rw [val_fin]; simp only [Bool.false_eq_true, if_false]; positivity, ?_⟩
      rw [val_fin]
      simp only [Bool.false_eq_true, if_false]
      rw [← sub_div, abs_div, abs_of_pos hU, ← mul_div_assoc]
      exact div_le_div_of_nonneg_right (hz.trans l3) hU.le
    split
    · rename_i hc
      apply fin_case
      have hc' : ((((2 * y + 1) * (2 * y + 1) * (w * w) : Nat)) : ℝ) < ((4 * n : Nat) : ℝ) := by exact_mod_cast hc
      push_cast at hc' ⊢
      have m : (2 * y + 1 : ℝ) * w ≤ 2 * R := by
        apply le_of_sq_le_sq _ (by positivity) |> fun h => h
        nlinarith
      rw [abs_le]; constructor <;> nlinarith
    · rename_i hc
      apply fin_case
      have hc' : ((4 * n : Nat) : ℝ) ≤ ((((2 * y + 1) * (2 * y + 1) * (w * w) : Nat)) : ℝ) := by exact_mod_cast not_lt.1 hc
      push_cast at hc' ⊢
      have m : 2 * R ≤ (2 * y + 1 : ℝ) * w := by
        by_contra hlt
        have : 0 ≤ (2 * y + 1 : ℝ) * w := by positivity
        nlinarith
      rw [abs_le]; constructor <;> nlinarith

/-! ### Rounding is to the nearest representable number -/

theorem ulp_pow (q : Nat) : ∃ j, ulp q = 2 ^ j ∧ (j = 0 ∨ 2 ^ (52 + j) ≤ q) ∧ q < 2 ^ (53 + j) := by
  unfold ulp
  split
  · rename_i h; exact ⟨0, rfl, .inl rfl, by simpa using h⟩
  · rename_i h
    have hq : q ≠ 0 := by rintro rfl; exact h (by positivity)
    have hl : 53 ≤ Nat.log2 q := (Nat.le_log2 hq).2 (by omega)
    refine ⟨_, rfl, .inr ?_, ?_⟩
    · rw [show 52 + (Nat.log2 q - 52) = Nat.log2 q by omega]; exact Nat.log2_self_le hq
    · rw [show 53 + (Nat.log2 q - 52) = Nat.log2 q + 1 by omega]; exact Nat.lt_log2_self

theorem rneDiv_nearest (a : Nat) {b : Nat} (hb : 0 < b) (m : Nat) :
    |((rneDiv a b * b : Nat) : ℝ) - a| ≤ |((m * b : Nat) : ℝ) - a| := by
  obtain ⟨h1, h2⟩ := rneDiv_bound a hb
  generalize rneDiv a b = r at *
  have c1 : (2 * a : ℝ) ≤ 2 * ((r * b : Nat) : ℝ) + b := by exact_mod_cast h1
  have c2 : 2 * ((r * b : Nat) : ℝ) ≤ 2 * a + b := by exact_mod_cast h2
  rcases lt_trichotomy m r with h | h | h
  · have : m * b + b ≤ r * b := by
      calc m * b + b = (m + 1) * b := by ring
        _ ≤ r * b := Nat.mul_le_mul_right _ h
    have c3 : ((m * b : Nat) : ℝ) + b ≤ ((r * b : Nat) : ℝ) := by exact_mod_cast this
    have : |((m * b : Nat) : ℝ) - a| ≥ a - ((m * b : Nat) : ℝ) := by rw [abs_sub_comm]; exact le_abs_self _
    refine le_trans ?_ this
    rw [abs_le]; constructor <;> linarith
  · rw [h]
  · have : r * b + b ≤ m * b := by
      calc r * b + b = (r + 1) * b := by ring
        _ ≤ m * b := Nat.mul_le_mul_right _ h
    have c3 : ((r * b : Nat) : ℝ) + b ≤ ((m * b : Nat) : ℝ) := by exact_mod_cast this
    refine le_trans ?_ (le_abs_self _)
    rw [abs_le]; constructor <;> linarith

/-- The result of rounding is representable, and no representable number is nearer to the exact value. -/
theorem roundMag_nearest {num den k : Nat} (hd : 0 < den) (h : roundMag num den = some k) :
    Representable k ∧ ∀ k', Representable k' → |(k : ℝ) - num / den| ≤ |(k' : ℝ) - num / den| := by
  obtain ⟨hk, _⟩ := roundMag_some h
  obtain ⟨j, hj, hlo, hhi⟩ := ulp_pow (num / den)
  rw [hj] at hk
  have hd' : (0 : ℝ) < den := by exact_mod_cast hd
  have hb : 0 < den * 2 ^ j := by positivity
  have hq : num < 2 ^ (53 + j) * den := (Nat.div_lt_iff_lt_mul hd).1 hhi
  have near : ∀ m : Nat, |(k : ℝ) - num / den| ≤ |((m * 2 ^ j : Nat) : ℝ) - num / den| := by
    intro m
    have := rneDiv_nearest num hb m
    have e : ∀ z : Nat, |((z * 2 ^ j : Nat) : ℝ) - num / den| = |((z * (den * 2 ^ j) : Nat) : ℝ) - num| / den := by
      intro z
      rw [← abs_of_pos hd', ← abs_div, abs_of_pos hd']
      congr 1
      push_cast
      field_simp
    rw [hk, e, e]
    exact div_le_div_of_nonneg_right this hd'.le
  refine ⟨?_, fun k' hk' => ?_⟩
  · -- representable
    have hr : rneDiv num (den * 2 ^ j) ≤ 2 ^ 53 := by
      obtain ⟨_, b2⟩ := rneDiv_bound num hb
      by_contra hlt
      have h1 : (2 ^ 53 + 1) * (den * 2 ^ j) ≤ rneDiv num (den * 2 ^ j) * (den * 2 ^ j) := Nat.mul_le_mul_right _ (by omega)
      have h2 : 2 ^ (53 + j) * den = 2 ^ 53 * (den * 2 ^ j) := by rw [pow_add]; ring
      rw [h2] at hq
      have h3 : (2 ^ 53 + 1) * (den * 2 ^ j) = 2 ^ 53 * (den * 2 ^ j) + den * 2 ^ j := by ring
      omega
    rcases hr.lt_or_eq with h | h
    · exact ⟨_, j, h, hk⟩
    · exact ⟨1, 53 + j, by norm_num, by rw [hk, h, pow_add, one_mul]⟩
  · obtain ⟨m, e, hm, rfl⟩ := hk'
    by_cases he : j ≤ e
    · have : m * 2 ^ e = m * 2 ^ (e - j) * 2 ^ j := by rw [mul_assoc, ← pow_add, Nat.sub_add_cancel he]
      rw [this]; exact near _
    · have hj0 : 2 ^ (52 + j) ≤ num / den := by
        rcases hlo with h | h
        · omega
        · exact h
      have h1 : m * 2 ^ e ≤ 2 ^ (52 + j) := by
        calc m * 2 ^ e ≤ 2 ^ 53 * 2 ^ e := Nat.mul_le_mul_right _ hm.le
          _ = 2 ^ (53 + e) := by rw [← pow_add]
          _ ≤ 2 ^ (52 + j) := Nat.pow_le_pow_right (by omega) (by omega)
      have h2 : ((2 ^ 52 * 2 ^ j : Nat) : ℝ) ≤ num / den := by
        rw [← pow_add, le_div_iff₀ hd']
        exact_mod_cast (Nat.le_div_iff_mul_le hd).1 hj0
      have h3 : ((m * 2 ^ e : Nat) : ℝ) ≤ ((2 ^ 52 * 2 ^ j : Nat) : ℝ) := by
        rw [← pow_add]; exact_mod_cast h1
      refine (near (2 ^ 52)).trans ?_
      generalize ((m * 2 ^ e : Nat) : ℝ) = A at *
      generalize ((2 ^ 52 * 2 ^ j : Nat) : ℝ) = B at *
      rw [abs_of_nonpos (by linarith), abs_of_nonpos (by linarith)]
      linarith

theorem roundMag_exact {k : Nat} (hk : Representable k) (h : k < TOP) : roundMag k 1 = some k := by
  obtain ⟨m, e, hm, rfl⟩ := hk
  obtain ⟨j, hj, hlo, hhi⟩ := ulp_pow (m * 2 ^ e)
  unfold roundMag
  simp only [Nat.div_one, one_mul, hj]
  have hje : j ≤ e := by
    by_contra hlt
    rcases hlo with h0 | h0
    · omega
    · have h1 : m * 2 ^ e < 2 ^ 53 * 2 ^ e := Nat.mul_lt_mul_of_pos_right hm (by positivity)
      rw [← pow_add] at h1
      have h2 : 2 ^ (53 + e) ≤ 2 ^ (52 + j) := Nat.pow_le_pow_right (by omega) (by omega)
      exact absurd (h0.trans_lt h1) (not_lt.2 h2)
  have e1 : m * 2 ^ e = m * 2 ^ (e - j) * 2 ^ j := by rw [mul_assoc, ← pow_add, Nat.sub_add_cancel hje]
  have e2 : rneDiv (m * 2 ^ e) (2 ^ j) = m * 2 ^ (e - j) := by
    rw [e1]
    unfold rneDiv
    have hp : 0 < 2 ^ j := by positivity
    simp only [Nat.mul_mod_left, mul_zero, hp, if_true]
    exact Nat.mul_div_cancel _ hp
  rw [e2, ← e1, if_pos h]

theorem representable_pow {n : Nat} (h : n ≤ 2 ^ 53) (e : Nat) : Representable (n * 2 ^ e) := by
  rcases h.lt_or_eq with h | h
  · exact ⟨n, e, h, rfl⟩
  · exact ⟨1, 53 + e, by norm_num, by rw [h, pow_add, one_mul]⟩

theorem mul_pow_lt {n a b : Nat} (h : n ≤ 2 ^ 53) (hb : 53 + a < b) : n * 2 ^ a < 2 ^ b := by
  refine (Nat.mul_le_mul_right _ h).trans_lt ?_
  rw [← pow_add]
  exact Nat.pow_lt_pow_right (by norm_num) hb

theorem mk_exact {k : Nat} (s : Bool) (hk : Representable k) (h : k < TOP) : mk s k 1 = fin s k := by
  unfold mk; rw [roundMag_exact hk h]

theorem val_units (n : Nat) : val (fin false (n * UNIT)) = n := by
  rw [val_fin]
  have hU := unitR_pos
  simp only [Bool.false_eq_true, if_false, Nat.cast_mul]
  rw [mul_div_assoc, div_self hU.ne', mul_one]

theorem units_rep {n : Nat} (h : n ≤ 2 ^ 53) : Representable (n * UNIT) := by
  rw [unit_def]; exact representable_pow h _

theorem units_top {n : Nat} (h : n ≤ 2 ^ 53) : n * UNIT < TOP := by
  rw [unit_def, top_def]; exact mul_pow_lt h (by norm_num)

theorem ofNat_eq {n : Nat} (h : n ≤ 2 ^ 53) : ofNat n = fin false (n * UNIT) :=
  mk_exact false (units_rep h) (units_top h)

/-- Integers up to `2^53` are exact. -/
theorem ofNat_exact {n : Nat} (h : n ≤ 2 ^ 53) : Fin (ofNat n) ∧ val (ofNat n) = n := by
  rw [ofNat_eq h]
  exact ⟨⟨_, _, rfl⟩, val_units n⟩

end F64
end Trypo
