import Verif.Proofs.F64Sum
import Verif.Proofs.MathUtils

/-!
# Norms and cosine similarities in float64
-/

namespace Trypo
namespace F64
open Spec

attribute [local irreducible] UNIT TOP

/-! ### Exact vectors -/

theorem absDot_eq (v w : List F64) : absDot (v.zip w) = Spec.inner ((vals v).map abs) ((vals w).map abs) := by
  unfold absDot Spec.inner vals
  rw [List.map_map, List.map_map, List.zip_map, List.map_map]
  congr 1
  refine List.map_congr_left fun p _ => ?_
  simp [abs_mul]

theorem inner_eq (v w : List F64) : Spec.inner (vals v) (vals w) = ((v.zip w).map (fun p => val p.1 * val p.2)).sum := by
  unfold Spec.inner vals
  rw [List.zip_map, List.map_map]
  rfl

theorem inner_abs_self : ∀ v : List ℝ, Spec.inner (v.map abs) (v.map abs) = Spec.inner v v
  | [] => rfl
  | a :: v => by
    have := inner_abs_self v
    unfold Spec.inner at *
    simp only [List.map_cons, List.zip_cons_cons, List.sum_cons, abs_mul_abs_self]
    rw [this]

theorem abs_inner_le (v w : List ℝ) : |Spec.inner v w| ≤ len v * len w := by
  unfold len
  rw [← Real.sqrt_mul (inner_self_nonneg v), ← Real.sqrt_sq_eq_abs]
  exact Real.sqrt_le_sqrt (cauchy_schwarz v w)

theorem absDot_le (v w : List F64) : absDot (v.zip w) ≤ len (vals v) * len (vals w) := by
  rw [absDot_eq]
  refine (le_abs_self _).trans ((abs_inner_le _ _).trans (le_of_eq ?_))
  unfold len
  rw [inner_abs_self, inner_abs_self]

theorem absDot_self (v : List F64) : absDot (v.zip v) = Spec.inner (vals v) (vals v) := by
  rw [absDot_eq, inner_abs_self]

/-! ### Estimates -/

/-- Dimensions up to `2^20`. -/
theorem dim_le {n : Nat} (h : n ≤ 2 ^ 20) : (n : ℝ) ≤ 2 ^ 20 := by exact_mod_cast h

theorem u_val : u = 1 / 9007199254740992 := by unfold u; norm_num

theorem eps_le {n : Nat} (h : n ≤ 2 ^ 20) : (1 + u) ^ (n + 1) - 1 ≤ (n + 3 / 2) * u := by
  have hn := dim_le h
  have hn0 : (0 : ℝ) ≤ n := Nat.cast_nonneg n
  have hu := u_pos
  have h1 : ((n + 1 : Nat) : ℝ) * u ≤ 1 / 2 ^ 32 := by
    push_cast; rw [u_val]; linarith
  have h2 := one_add_pow_le (n + 1) hu.le (h1.trans (by norm_num))
  have h3 : (((n + 1 : Nat) : ℝ) * u) ^ 2 ≤ u / 2 := by
    have h4 : ((n + 1 : Nat) : ℝ) ≤ 2 ^ 21 := by push_cast; linarith
    have h5 : ((n + 1 : Nat) : ℝ) ^ 2 ≤ (2 ^ 21) ^ 2 := pow_le_pow_left₀ (Nat.cast_nonneg _) h4 2
    rw [mul_pow, sq u]
    have h6 : (2 ^ 21 : ℝ) ^ 2 * u ≤ 1 / 2 := by rw [u_val]; norm_num
    calc ((n + 1 : Nat) : ℝ) ^ 2 * (u * u) ≤ (2 ^ 21) ^ 2 * (u * u) := mul_le_mul_of_nonneg_right h5 (by positivity)
      _ = ((2 ^ 21) ^ 2 * u) * u := by ring
      _ ≤ 1 / 2 * u := mul_le_mul_of_nonneg_right h6 hu.le
      _ = u / 2 := by ring
  push_cast at h2 h3
  linarith

theorem pow_u_le {n : Nat} (h : n ≤ 2 ^ 20) : (1 + u) ^ n ≤ 2 := by
  have h1 := eps_le h
  have h2 : (1 + u) ^ n ≤ (1 + u) ^ (n + 1) := pow_le_pow_right₀ (by have := u_pos; linarith) (by omega)
  have hn := dim_le h
  have : ((n : ℝ) + 3 / 2) * u ≤ 1 := by rw [u_val]; linarith
  linarith

/-- A number smaller than anything that matters. -/
noncomputable def δ : ℝ := 2 ^ 22 * η

theorem δ_pos : 0 < δ := by unfold δ; have := η_pos; positivity

theorem under_le {n : Nat} (h : n ≤ 2 ^ 20) : (1 + u) ^ n * (n * η) ≤ δ := by
  have hn := dim_le h
  have hη := η_pos
  have h1 : (n : ℝ) * η ≤ 2 ^ 20 * η := mul_le_mul_of_nonneg_right hn hη.le
  have h2 := pow_u_le h
  calc _ ≤ 2 * (2 ^ 20 * η) := mul_le_mul h2 h1 (by positivity) (by norm_num)
    _ ≤ δ := by unfold δ; nlinarith

/-- The lower bound of the squares in the range considered. -/
noncomputable def LOW : ℝ := 1 / 2 ^ 960

theorem low_pos : 0 < LOW := by unfold LOW; positivity

theorem half_pow (n : Nat) : 1 / (2 * (2 : ℝ) ^ n) = 1 / 2 ^ (n + 1) := by rw [pow_succ']

theorem η_eq : η = 1 / 2 ^ 1075 := by
  unfold η
  rw [unit_def, Nat.cast_pow, Nat.cast_ofNat]
  exact half_pow 1074

theorem δ_low : δ ≤ u / 1000 * LOW := by
  unfold δ LOW
  rw [η_eq, show (1075 : Nat) = 115 + 960 from rfl, pow_add, u_val]
  have : (0 : ℝ) < 2 ^ 960 := by positivity
  rw [mul_one_div, mul_one_div, div_le_div_iff₀ (by positivity) this]
  generalize (2 : ℝ) ^ 960 = X at *
  norm_num
  nlinarith

/-- The error of a float64 dot product relative to the product of the lengths. -/
theorem dot_rel {v w : List F64} (hl : v.length = w.length) (hn : v.length ≤ 2 ^ 20)
    (hf : Fin (dot v w)) (hlow : LOW ≤ len (vals v) * len (vals w)) :
    |val (dot v w) - Spec.inner (vals v) (vals w)| ≤ (v.length + 8 / 5) * u * (len (vals v) * len (vals w)) := by
  obtain ⟨_, h⟩ := dot_err (v.zip w) hf
  have hz : (v.zip w).length = v.length := by rw [List.length_zip, hl, min_self]
  rw [hz, ← inner_eq] at h
  have h1 := eps_le hn
  have h2 := under_le hn
  have h3 := absDot_le v w
  have h4 := absDot_nonneg (v.zip w)
  have h5 := δ_low
  have hu := u_pos
  have hn0 : (0 : ℝ) ≤ v.length := Nat.cast_nonneg _
  have hp := one_le_pow_u (v.length + 1)
  refine h.trans ?_
  generalize len (vals v) * len (vals w) = L at *
  calc _ ≤ (v.length + 3 / 2) * u * L + u / 1000 * L :=
        add_le_add (mul_le_mul h1 h3 h4 (by positivity))
          (h2.trans (h5.trans (mul_le_mul_of_nonneg_left hlow (by positivity))))
    _ ≤ _ := by nlinarith [mul_nonneg hu.le (low_pos.le.trans hlow)]

theorem norm_eq_dot (v : List F64) : norm v = sqrt (dot v v) := by
  have : ∀ (l : List F64) (s : F64), l.foldl (fun x a => add x (mul a a)) s = (l.zip l).foldl (fun r p => add r (mul p.1 p.2)) s := by
    intro l
    induction l with
    | nil => intro s; rfl
    | cons a l ih => intro s; simp only [List.foldl_cons, List.zip_cons_cons]; exact ih _
  show sqrt (v.foldl (fun x a => add x (mul a a)) (fin false 0)) = sqrt ((v.zip v).foldl (fun r p => add r (mul p.1 p.2)) (fin false 0))
  rw [this]

theorem sqrt_rel {S s g : ℝ} (hS : 0 < S) (hg : 0 ≤ g) (hg1 : g ≤ 1 / 4) (h : |s - S| ≤ g * S) :
    0 < s ∧ |Real.sqrt s - Real.sqrt S| ≤ (g / 2 + g ^ 2) * Real.sqrt S := by
  obtain ⟨h1, h2⟩ := abs_le.1 h
  have hs : 0 < s := by nlinarith
  refine ⟨hs, ?_⟩
  have hA := Real.sqrt_pos.2 hS
  have hB := Real.sqrt_pos.2 hs
  have eA := Real.mul_self_sqrt hS.le
  have eB := Real.mul_self_sqrt hs.le
  generalize Real.sqrt S = A at *
  generalize Real.sqrt s = B at *
  subst eA eB
  have e : B * B - A * A = (B - A) * (B + A) := by ring
  rw [abs_le]
  constructor
  · -- lower
    by_contra hlt
    push Not at hlt
    have hB' : B < (1 - (g / 2 + g ^ 2)) * A := by linarith
    have h3 : 0 ≤ 1 - (g / 2 + g ^ 2) := by nlinarith
    have h4 : B * B < ((1 - (g / 2 + g ^ 2)) * A) * ((1 - (g / 2 + g ^ 2)) * A) := mul_self_lt_mul_self hB.le hB'
    have h5 : (1 - (g / 2 + g ^ 2)) * (1 - (g / 2 + g ^ 2)) ≤ 1 - g := by nlinarith [sq_nonneg g, mul_nonneg hg (sq_nonneg g), mul_nonneg hg hg]
    nlinarith [mul_pos hA hA]
  · by_contra hlt
    push Not at hlt
    have hB' : (1 + (g / 2 + g ^ 2)) * A < B := by linarith
    have h4 : ((1 + (g / 2 + g ^ 2)) * A) * ((1 + (g / 2 + g ^ 2)) * A) < B * B := mul_self_lt_mul_self (by positivity) hB'
    have h5 : 1 + g ≤ (1 + (g / 2 + g ^ 2)) * (1 + (g / 2 + g ^ 2)) := by nlinarith [sq_nonneg g, mul_nonneg hg (sq_nonneg g), mul_nonneg hg hg]
    nlinarith [mul_pos hA hA]

/-- Second-order terms are negligible. -/
theorem second_le {n : Nat} (h : n ≤ 2 ^ 20) : ((n + 2) * u) ^ 2 ≤ u / 1000 ∧ ((n : ℝ) + 2) * u ≤ 1 / 2 ^ 32 := by
  have hn := dim_le h
  have hn0 : (0 : ℝ) ≤ n := Nat.cast_nonneg n
  have hu := u_pos
  have h1 : ((n : ℝ) + 2) ≤ 2 ^ 21 := by linarith
  constructor
  · have h5 : ((n : ℝ) + 2) ^ 2 ≤ (2 ^ 21) ^ 2 := pow_le_pow_left₀ (by positivity) h1 2
    have h6 : (2 ^ 21 : ℝ) ^ 2 * u ≤ 1 / 1000 := by rw [u_val]; norm_num
    calc ((n + 2) * u) ^ 2 = ((n : ℝ) + 2) ^ 2 * (u * u) := by ring
      _ ≤ (2 ^ 21) ^ 2 * (u * u) := mul_le_mul_of_nonneg_right h5 (by positivity)
      _ = ((2 ^ 21) ^ 2 * u) * u := by ring
      _ ≤ 1 / 1000 * u := mul_le_mul_of_nonneg_right h6 hu.le
      _ = u / 1000 := by ring
  · rw [u_val]; linarith

/-- The error of a float64 norm. -/
theorem norm_rel {v : List F64} (hn : v.length ≤ 2 ^ 20) (hf : Fin (dot v v)) (hlow : LOW ≤ Spec.inner (vals v) (vals v)) :
    Fin (norm v) ∧ |val (norm v) - len (vals v)| ≤ (v.length / 2 + 2) * u * len (vals v) := by
  have hS : 0 < Spec.inner (vals v) (vals v) := low_pos.trans_le hlow
  have hlen : len (vals v) * len (vals v) = Spec.inner (vals v) (vals v) := Real.mul_self_sqrt hS.le
  have h := dot_rel rfl hn hf (by rw [hlen]; exact hlow)
  rw [hlen] at h
  have hu := u_pos
  have hn0 : (0 : ℝ) ≤ v.length := Nat.cast_nonneg _
  obtain ⟨hsec, hsm⟩ := second_le hn
  have hg0 : 0 ≤ ((v.length : ℝ) + 8 / 5) * u := by positivity
  have hgle : ((v.length : ℝ) + 8 / 5) * u ≤ (v.length + 2) * u := mul_le_mul_of_nonneg_right (by linarith) hu.le
  have hg1 : ((v.length : ℝ) + 8 / 5) * u ≤ 1 / 4 := hgle.trans (hsm.trans (by norm_num))
  obtain ⟨hs, hr⟩ := sqrt_rel hS hg0 hg1 h
  obtain ⟨q1, q2, q3⟩ := sqrt_err hf hs.le
  rw [norm_eq_dot]
  refine ⟨q1, ?_⟩
  have hL : len (vals v) = Real.sqrt (Spec.inner (vals v) (vals v)) := rfl
  rw [hL]
  have hA := Real.sqrt_pos.2 hS
  generalize Real.sqrt (Spec.inner (vals v) (vals v)) = A at *
  generalize Real.sqrt (val (dot v v)) = B at *
  generalize val (sqrt (dot v v)) = R at *
  have hg2 : (((v.length : ℝ) + 8 / 5) * u) ^ 2 ≤ u / 1000 := (pow_le_pow_left₀ hg0 hgle 2).trans hsec
  have hB : B ≤ 2 * A := by
    have := (abs_le.1 hr).2
    nlinarith
  have e : R - A = (R - B) + (B - A) := by ring
  rw [e]
  refine (abs_add_le _ _).trans ?_
  have hB2 : B ≤ (1 + (((v.length : ℝ) + 8 / 5) * u / 2 + (((v.length : ℝ) + 8 / 5) * u) ^ 2)) * A := by
    have := (abs_le.1 hr).2
    linarith
  have hB3 : B ≤ (1 + 1 / 100) * A := by
    refine hB2.trans (mul_le_mul_of_nonneg_right ?_ hA.le)
    have : u ≤ 1 / 1000 := by rw [u_val]; norm_num
    have : ((v.length : ℝ) + 8 / 5) * u ≤ 1 / 1000 := hgle.trans (hsm.trans (by norm_num))
    linarith
  calc _ ≤ u * B + (((v.length : ℝ) + 8 / 5) * u / 2 + (((v.length : ℝ) + 8 / 5) * u) ^ 2) * A := add_le_add q3 hr
    _ ≤ u * ((1 + 1 / 100) * A) + (((v.length : ℝ) + 8 / 5) * u / 2 + u / 1000) * A :=
        add_le_add (mul_le_mul_of_nonneg_left hB3 hu.le) (mul_le_mul_of_nonneg_right (by linarith) hA.le)
    _ ≤ _ := by nlinarith [mul_pos hu hA]

/-! ### The cosine -/

/-- The largest component considered. -/
noncomputable def BIG : ℝ := 2 ^ 500
/-- The smallest length considered. -/
noncomputable def SMALL : ℝ := 1 / 2 ^ 480

theorem big_ge : 1 ≤ BIG := one_le_pow₀ (by norm_num)
theorem small_pos : 0 < SMALL := by unfold SMALL; positivity
theorem small_sq : SMALL * SMALL = LOW := by
  unfold SMALL LOW
  rw [div_mul_div_comm, one_mul, ← pow_add]
theorem big_half : 2 ^ 22 * (BIG * BIG) + 1 ≤ HALF := by
  have e : HALF = 2 * (2 ^ 22 * (BIG * BIG)) := by
    unfold BIG HALF
    rw [← pow_add, ← pow_add, ← pow_succ']
  have h1 := big_ge
  have : (1 : ℝ) ≤ 2 ^ 22 * (BIG * BIG) := by nlinarith
  rw [e]
  linarith
theorem η_small : η ≤ u / 1000 * SMALL := by
  unfold SMALL
  rw [η_eq, show (1075 : Nat) = 595 + 480 from rfl, pow_add, u_val]
  have : (0 : ℝ) < 2 ^ 480 := by positivity
  have h2 : (1000 * 9007199254740992 : ℝ) ≤ 2 ^ 595 :=
    le_trans (by norm_num : _ ≤ (2 : ℝ) ^ 64) (pow_le_pow_right₀ (by norm_num) (by norm_num))
  rw [mul_one_div, div_div, div_div]
  refine one_div_le_one_div_of_le (by positivity) ?_
  generalize (2 : ℝ) ^ 595 = X at *
  generalize (2 : ℝ) ^ 480 = Y at *
  nlinarith
theorem small_le : SMALL ≤ 1 := by
  unfold SMALL
  exact div_le_one_of_le₀ (one_le_pow₀ (by norm_num)) (by positivity)

theorem inner_ge {v : List ℝ} {x : ℝ} (h : x ∈ v) : x * x ≤ Spec.inner v v := by
  induction v with
  | nil => simp at h
  | cons a v ih =>
    have e : Spec.inner (a :: v) (a :: v) = a * a + Spec.inner v v := by simp [Spec.inner]
    rw [e]
    have := inner_self_nonneg v
    rcases List.mem_cons.1 h with rfl | h
    · linarith
    · have := ih h; nlinarith [mul_self_nonneg a]

theorem moderate_low {v : List F64} (h : Moderate v) : LOW ≤ Spec.inner (vals v) (vals v) := by
  obtain ⟨x, hx, hx1⟩ := h.2
  refine le_trans ?_ (inner_ge (List.mem_map_of_mem (f := val) hx))
  rw [← small_sq, ← abs_mul_abs_self (val x)]
  exact mul_self_le_mul_self small_pos.le hx1

theorem moderate_len {v : List F64} (h : Moderate v) : SMALL ≤ len (vals v) := by
  unfold len
  refine Real.le_sqrt_of_sq_le ?_
  rw [sq, small_sq]
  exact moderate_low h

theorem moderate_absDot {v w : List F64} (hv : Moderate v) (hw : Moderate w) : absDot (v.zip w) ≤ v.length * (BIG * BIG) := by
  have hb := big_ge
  have : absDot (v.zip w) ≤ ((v.zip w).map (fun _ => (0 : ℝ) * 0 + BIG * BIG)).sum := by
    refine sum_map_le fun p hp => ?_
    have h1 : |val p.1| ≤ BIG := (hv.1 p.1 (List.of_mem_zip hp).1).2
    have h2 : |val p.2| ≤ BIG := (hw.1 p.2 (List.of_mem_zip hp).2).2
    rw [abs_mul]
    have := mul_le_mul h1 h2 (abs_nonneg _) (by linarith)
    linarith
  rw [sum_affine (fun _ => (0 : ℝ))] at this
  have hz : ((v.zip w).length : ℝ) ≤ v.length := by exact_mod_cast (by rw [List.length_zip]; exact min_le_left _ _)
  have : absDot (v.zip w) ≤ (v.zip w).length * (BIG * BIG) := by linarith
  exact this.trans (mul_le_mul_of_nonneg_right hz (by positivity))

theorem moderate_dot {v w : List F64} (hl : v.length = w.length) (hn : v.length ≤ 2 ^ 20) (hv : Moderate v) (hw : Moderate w) :
    Fin (dot v w) := by
  refine dot_fin (v.zip w) (fun p hp => ⟨(hv.1 p.1 (List.of_mem_zip hp).1).1, (hw.1 p.2 (List.of_mem_zip hp).2).1⟩) ?_
  have hz : (v.zip w).length = v.length := by rw [List.length_zip, hl, min_self]
  rw [hz]
  have h1 := pow_u_le hn
  have hu := u_pos
  have hu1 := u_lt
  have hb := big_ge
  have h2 : (1 + u) ^ (v.length + 1) ≤ 2 * 2 := by
    rw [pow_succ]; exact mul_le_mul h1 (by linarith) (by linarith) (by norm_num)
  have h3 := moderate_absDot hv hw
  have h4 := under_le hn
  have h5 : δ < 1 := by
    have := δ_low
    have : LOW ≤ 1 := by rw [← small_sq]; exact mul_le_one₀ small_le small_pos.le small_le
    nlinarith
  have h6 := big_half
  have h7 : absDot (v.zip w) ≤ 2 ^ 20 * (BIG * BIG) := h3.trans (mul_le_mul_of_nonneg_right (dim_le hn) (by positivity))
  calc _ ≤ 2 * 2 * (2 ^ 20 * (BIG * BIG)) + δ := add_le_add (mul_le_mul h2 h7 (absDot_nonneg _) (by norm_num)) h4
    _ < 2 ^ 22 * (BIG * BIG) + 1 := by nlinarith
    _ ≤ HALF := h6

theorem moderate_len_le {v : List F64} (hn : v.length ≤ 2 ^ 20) (h : Moderate v) : len (vals v) ≤ 2 ^ 10 * BIG := by
  unfold len
  have hb := big_ge
  rw [Real.sqrt_le_left (by positivity), ← absDot_self]
  refine (moderate_absDot h h).trans ?_
  calc (v.length : ℝ) * (BIG * BIG) ≤ 2 ^ 20 * (BIG * BIG) := mul_le_mul_of_nonneg_right (dim_le hn) (by positivity)
    _ = _ := by ring

theorem inv_near {a b α : ℝ} (h0 : 0 ≤ α) (h1 : α ≤ 1 / 8) (ha : |a - 1| ≤ α) (hb : |b - 1| ≤ α) :
    0 < a ∧ 0 < b ∧ |1 / (a * b) - 1| ≤ 2 * α + 8 * α ^ 2 := by
  obtain ⟨a1, a2⟩ := abs_le.1 ha
  obtain ⟨b1, b2⟩ := abs_le.1 hb
  have hA : 0 < a := by linarith
  have hB : 0 < b := by linarith
  refine ⟨hA, hB, ?_⟩
  have hab := mul_pos hA hB
  have l1 : (1 - α) * (1 - α) ≤ a * b := mul_le_mul (by linarith) (by linarith) (by linarith) hA.le
  have l2 : a * b ≤ (1 + α) * (1 + α) := mul_le_mul (by linarith) (by linarith) hB.le (by linarith)
  have e : 1 / (a * b) - 1 = (1 - a * b) / (a * b) := by field_simp
  rw [e, abs_div, abs_of_pos hab, div_le_iff₀ hab]
  have h3 : |1 - a * b| ≤ 2 * α + α ^ 2 := by rw [abs_le]; constructor <;> nlinarith
  refine h3.trans ?_
  have h4 : (2 * α + 8 * α ^ 2) * (1 - 2 * α) ≤ (2 * α + 8 * α ^ 2) * (a * b) := mul_le_mul_of_nonneg_left (by nlinarith) (by positivity)
  nlinarith [mul_nonneg h0 h0, mul_nonneg (mul_nonneg h0 h0) h0]

set_option maxHeartbeats 1000000 in
/-- The error of a float64 cosine similarity. -/
theorem cos_err {v w : List F64} (hl : v.length = w.length) (hn : v.length ≤ 2 ^ 20) (hv : Moderate v) (hw : Moderate w) :
    ∃ s, cosineSimilarity v w = some s ∧ Fin s ∧ |val s - cosine (vals v) (vals w)| ≤ (2 * v.length + 8) * u := by
  have hu := u_pos
  have hn0 : (0 : ℝ) ≤ v.length := Nat.cast_nonneg _
  obtain ⟨hsec, hsm⟩ := second_le hn
  have hdim := dim_le hn
  have hN := small_pos.trans_le (moderate_len hv)
  have hM := small_pos.trans_le (moderate_len hw)
  have hlow : LOW ≤ len (vals v) * len (vals w) := by
    rw [← small_sq]; exact mul_le_mul (moderate_len hv) (moderate_len hw) small_pos.le hN.le
  have hfd := moderate_dot hl hn hv hw
  have hd := dot_rel hl hn hfd hlow
  obtain ⟨fa, ha⟩ := norm_rel hn (moderate_dot rfl hn hv hv) (moderate_low hv)
  obtain ⟨fb, hb⟩ := norm_rel (hl ▸ hn) (moderate_dot rfl (hl ▸ hn) hw hw) (moderate_low hw)
  rw [← hl] at hb
  have hD := abs_inner_le (vals v) (vals w)
  have hη := η_pos
  have hηs := η_small
  have hMs := moderate_len hw
  have hMb := moderate_len_le (hl ▸ hn) hw
  have hbh := big_half
  have hbg := big_ge
  have hbb : BIG ≤ BIG * BIG := le_mul_of_one_le_left (by linarith) hbg
  unfold cosineSimilarity
  rw [if_neg (by simpa using hl)]
  have hτ : ((v.length : ℝ) / 2 + 2) * u ≤ (v.length + 2) * u := mul_le_mul_of_nonneg_right (by linarith) hu.le
  have hA1 : |val (norm v) / len (vals v) - 1| ≤ (v.length / 2 + 2) * u := by
    rw [div_sub_one hN.ne', abs_div, abs_of_pos hN, div_le_iff₀ hN]; exact ha
  have hB1 : |val (norm w) / len (vals w) - 1| ≤ (v.length / 2 + 2) * u := by
    rw [div_sub_one hM.ne', abs_div, abs_of_pos hM, div_le_iff₀ hM]; exact hb
  have hα0 : 0 ≤ ((v.length : ℝ) / 2 + 2) * u := by positivity
  obtain ⟨pa, pb, hinv⟩ := inv_near hα0 (hτ.trans (hsm.trans (by norm_num))) hA1 hB1
  have pA : 0 < val (norm v) := by
    have := mul_pos pa hN; rwa [div_mul_cancel₀ _ hN.ne'] at this
  have pB : 0 < val (norm w) := by
    have := mul_pos pb hM; rwa [div_mul_cancel₀ _ hM.ne'] at this
  have e0 : GoFloat.eq (norm v) GoFloat.zero = false := by
    obtain ⟨s, k, hk⟩ := fa
    rw [hk] at pA ⊢
    show decide (key s k = key false 0) = false
    rw [decide_eq_false_iff_not]
    intro hc
    have : val (fin s k) = 0 := by
      show (key s k : ℝ) / _ = 0
      rw [hc]; simp [key]
    linarith
  rw [e0]
  simp only [Bool.false_and, Bool.false_eq_true, if_false]
  refine ⟨_, rfl, ?_⟩
  show Fin (div (div (dot v w) (norm v)) (norm w)) ∧ |val (div (div (dot v w) (norm v)) (norm w)) - _| ≤ _
  unfold cosine
  generalize len (vals v) = N at *
  generalize len (vals w) = M at *
  generalize Spec.inner (vals v) (vals w) = D at *
  generalize (v.length : ℝ) = n at *
  generalize dot v w = d at *
  generalize norm v = A at *
  generalize norm w = B at *
  have hNM : 0 < N * M := mul_pos hN hM
  have hx : |D / (N * M)| ≤ 1 := by rw [abs_div, abs_of_pos hNM]; exact div_le_one_of_le₀ hD hNM.le
  have hy : |val d / (N * M) - D / (N * M)| ≤ (n + 8 / 5) * u := by
    rw [← sub_div, abs_div, abs_of_pos hNM, div_le_iff₀ hNM]; exact hd
  have ez : val d / val A / val B = val d / (N * M) * (1 / (val A / N * (val B / M))) := by
    field_simp
  have ez1 : val d / val A = val d / (N * M) * (N / val A) * M := by field_simp
  generalize hα : (n / 2 + 2) * u = α at *
  have hα2 : α ^ 2 ≤ u / 1000 := (pow_le_pow_left₀ hα0 hτ 2).trans hsec
  have hu3 : u ≤ 1 / 2 ^ 32 := by rw [u_val]; norm_num
  have hα3 : α ≤ 1 / 2 ^ 32 := hτ.trans hsm
  have hγ : (n + 8 / 5) * u ≤ 1 / 2 ^ 32 := le_trans (mul_le_mul_of_nonneg_right (by linarith) hu.le) hsm
  generalize D / (N * M) = x at *
  generalize val d / (N * M) = y at *
  have hy1 : |y| ≤ 1 + 1 / 2 ^ 32 := by
    have := abs_sub_abs_le_abs_sub y x; linarith
  have hNA : |N / val A| ≤ 1 + 1 / 10 := by
    rw [abs_of_pos (div_pos hN pA), div_le_iff₀ pA]
    have := (abs_le.1 ha).1
    nlinarith
  have hMB : M / val B ≤ 1 + 1 / 10 := by
    rw [div_le_iff₀ pB]
    have := (abs_le.1 hb).1
    nlinarith
  generalize 1 / (val A / N * (val B / M)) = c at *
  have hc1 : |c| ≤ 1 + 1 / 2 ^ 30 := by
    have := abs_sub_abs_le_abs_sub c 1
    rw [abs_one] at this
    linarith
  -- the first quotient
  have b1 : |val d / val A| ≤ 2 * M := by
    rw [ez1, abs_mul, abs_mul, abs_of_pos hM]
    refine mul_le_mul_of_nonneg_right ?_ hM.le
    calc |y| * |N / val A| ≤ (1 + 1 / 2 ^ 32) * (1 + 1 / 10) := mul_le_mul hy1 hNA (abs_nonneg _) (by norm_num)
      _ ≤ 2 := by norm_num
  have f1 : Fin (div d A) := by
    refine div_fin hfd fa pA.ne' ?_
    rw [half_add]
    have hu1 := u_lt
    have hη1 := η_lt
    have : |val d / val A| * (1 + u) ≤ 2 * M * 2 := mul_le_mul b1 (by linarith) (by linarith) (by positivity)
    linarith
  obtain ⟨_, _, r1⟩ := div_err fa f1
  generalize div d A = q1 at *
  have hηB : η / val B ≤ u / 500 := by
    rw [div_le_iff₀ pB]
    have : M ≤ (1 + 1 / 10) * val B := (div_le_iff₀ pB).1 hMB
    have h2 : u / 1000 * SMALL ≤ u / 1000 * M := mul_le_mul_of_nonneg_left hMs (by positivity)
    have h3 : u / 1000 * M ≤ u / 1000 * ((1 + 1 / 10) * val B) := mul_le_mul_of_nonneg_left this (by positivity)
    have := mul_pos hu pB
    linarith
  have r1' : |val q1 / val B - val d / val A / val B| ≤ u * |val d / val A / val B| + u / 500 := by
    rw [← sub_div, abs_div, abs_of_pos pB, abs_div (val d / val A), abs_of_pos pB]
    calc _ ≤ (u * |val d / val A| + η) / val B := div_le_div_of_nonneg_right r1 pB.le
      _ = u * (|val d / val A| / val B) + η / val B := by ring
      _ ≤ _ := by linarith
  rw [ez] at r1'
  have hz : |y * c| ≤ 1 + 1 / 2 ^ 20 := by
    rw [abs_mul]
    calc |y| * |c| ≤ (1 + 1 / 2 ^ 32) * (1 + 1 / 2 ^ 30) := mul_le_mul hy1 hc1 (abs_nonneg _) (by norm_num)
      _ ≤ _ := by norm_num
  have hw1 : |val q1 / val B| ≤ 1 + 1 / 2 ^ 10 := by
    have h1 := abs_sub_abs_le_abs_sub (val q1 / val B) (y * c)
    have h2 : u * |y * c| ≤ 1 / 2 ^ 32 * 2 := mul_le_mul hu3 (by linarith) (abs_nonneg _) (by norm_num)
    linarith
  have f2 : Fin (div q1 B) := by
    refine div_fin f1 fb pB.ne' ?_
    rw [half_add]
    have hu1 := u_lt
    have hη1 := η_lt
    have : |val q1 / val B| * (1 + u) ≤ (1 + 1 / 2 ^ 10) * 2 := mul_le_mul hw1 (by linarith) (by linarith) (by positivity)
    linarith
  refine ⟨f2, ?_⟩
  obtain ⟨_, _, r2⟩ := div_err fb f2
  generalize val (div q1 B) = q at *
  generalize val q1 / val B = p at *
  have hη' : η ≤ u / 1000 := by
    exact hηs.trans (mul_le_of_le_one_right (by positivity) small_le)
  have k1 : |y * c - x| ≤ 2 * α + (n + 8 / 5) * u + u / 50 := by
    have e : y * c - x = y * (c - 1) + (y - x) := by ring
    rw [e]
    refine (abs_add_le _ _).trans ?_
    rw [abs_mul]
    have : |y| * |c - 1| ≤ (1 + 1 / 2 ^ 32) * (2 * α + 8 * α ^ 2) := mul_le_mul hy1 hinv (abs_nonneg _) (by norm_num)
    have hαu : 1 / 2 ^ 32 * (2 * α) ≤ u / 1000 := by
      have : α ≤ 2 ^ 20 * u := by rw [← hα]; exact mul_le_mul_of_nonneg_right (by linarith) hu.le
      linarith
    linarith
  have k2 : |p - y * c| ≤ u * (1 + 1 / 2 ^ 20) + u / 500 :=
    r1'.trans (by have := mul_le_mul_of_nonneg_left hz hu.le; linarith)
  have k3 : |q - p| ≤ u * (1 + 1 / 2 ^ 10) + u / 1000 :=
    r2.trans (by have := mul_le_mul_of_nonneg_left hw1 hu.le; linarith)
  have e : q - x = (q - p) + ((p - y * c) + (y * c - x)) := by ring
  rw [e]
  refine (abs_add_le _ _).trans ((add_le_add le_rfl (abs_add_le _ _)).trans ?_)
  have : (2 : ℝ) * α = (n + 4) * u := by rw [← hα]; ring
  linarith

end F64
end Trypo
