import Verif.Proofs.F64Cos
import Verif.Proofs.F64Mean
import Verif.Proofs.KNN

/-!
# Searches over float64 vectors compared with exact scores
-/

namespace Trypo
open Spec

namespace F64

attribute [local irreducible] UNIT TOP

theorem lt_iff_val {x y : F64} (hx : Fin x) (hy : Fin y) : lt x y = true ↔ val x < val y := by
  obtain ⟨a, ka, rfl⟩ := hx
  obtain ⟨b, kb, rfl⟩ := hy
  have hU := unitR_pos
  show decide (key a ka < key b kb) = true ↔ (key a ka : ℝ) / (UNIT : ℝ) < (key b kb : ℝ) / (UNIT : ℝ)
  rw [div_lt_div_iff_of_pos_right hU, Int.cast_lt, decide_eq_true_eq]

set_option exponentiation.threshold 2200 in
theorem max_units : UNIT * 2 ^ 1000 < TOP - 2 ^ 2045 := by
  have h1 : UNIT * 2 ^ 1000 = 2 ^ 2074 := by rw [unit_def, ← pow_add]
  have h2 : (2 : Nat) ^ 2074 ≤ 2 ^ 2097 := Nat.pow_le_pow_right (by norm_num) (by norm_num)
  have h3 : (2 : Nat) ^ 2045 < 2 ^ 2097 := Nat.pow_lt_pow_right (by norm_num) (by norm_num)
  have h4 : TOP = 2 ^ 2097 + 2 ^ 2097 := by rw [top_def, ← two_mul, ← pow_succ']
  generalize (2 : Nat) ^ 2097 = a at *
  generalize (2 : Nat) ^ 2045 = b at *
  generalize (2 : Nat) ^ 2074 = c at *
  omega

theorem fin_max : Fin F64.max := ⟨_, _, rfl⟩

theorem val_max_gen {T P k : Nat} (h : UNIT * P < T - k) : (P : ℝ) < val (fin false (T - k)) := by
  have hU := unitR_pos
  rw [val_fin]
  simp only [Bool.false_eq_true, if_false]
  rw [lt_div_iff₀ hU, mul_comm]
  exact_mod_cast h

set_option exponentiation.threshold 2200 in
theorem val_max : (2 : ℝ) ^ 1000 < val F64.max := by
  have h : ((2 ^ 1000 : Nat) : ℝ) < val F64.max := val_max_gen max_units
  rwa [Nat.cast_pow, Nat.cast_ofNat] at h

set_option exponentiation.threshold 2200 in
theorem comparable_of_small {asc : Bool} {s : F64} (hs : Fin s) (h : |val s| ≤ 2 ^ 1000) : Comparable asc s := by
  have hm := val_max
  obtain ⟨h1, h2⟩ := abs_le.1 h
  unfold Comparable Better
  cases asc with
  | true => exact (lt_iff_val hs fin_max).2 (by linarith)
  | false =>
    simp only [Bool.false_eq_true, if_false]
    refine (lt_iff_val (fin_negate.2 fin_max) hs).2 ?_
    show val (negate F64.max) < val s
    rw [val_negate]; linarith

/-- From computed scores to exact ones. -/
theorem bestBy_of_kbest {dist : List F64 → Option F64} {asc : Bool} {pool : List (List F64)} {k n : Nat} {res : List Nat}
    (h : KBest dist asc pool k res) {ok : List F64 → List F64 → Prop}
    (hlen : ∀ v ∈ pool, v.length ≠ n → dist v = none)
    (hfin : ∀ v ∈ pool, v.length = n → ∃ s, dist v = some s ∧ Fin s ∧ |val s| ≤ 2 ^ 1000)
    (hok : ∀ v ∈ pool, ∀ w ∈ pool, v.length = n → w.length = n → ∀ s t, dist v = some s → dist w = some t → Fin s → Fin t →
      (if asc then val s ≤ val t else val t ≤ val s) → ok v w) :
    BestBy n ok pool k res := by
  have score : ∀ i v, pool[i]? = some v → v.length = n → ∃ s, HasScore dist asc pool i s ∧ dist v = some s ∧ Fin s := by
    intro i v hv hn
    obtain ⟨s, h1, h2, h3⟩ := hfin v (List.mem_of_getElem? hv) hn
    exact ⟨s, ⟨v, hv, h1, comparable_of_small h2 h3⟩, h1, h2⟩
  have valid : ∀ i ∈ res, ∃ v, pool[i]? = some v ∧ v.length = n := by
    intro i hi
    obtain ⟨s, v, hv, hd, _⟩ := h.valid i hi
    refine ⟨v, hv, ?_⟩
    by_contra hne
    rw [hlen v (List.mem_of_getElem? hv) hne] at hd
    cases hd
  have step : ∀ {s t : F64}, Fin s → Fin t → ¬ Better asc t s → (if asc then val s ≤ val t else val t ≤ val s) := by
    intro s t hs ht hb
    unfold Better at hb
    cases asc with
    | true =>
      simp only [if_true] at hb ⊢
      exact not_lt.1 (fun hlt => hb ((lt_iff_val ht hs).2 hlt))
    | false =>
      simp only [Bool.false_eq_true, if_false] at hb ⊢
      exact not_lt.1 (fun hlt => hb ((lt_iff_val hs ht).2 hlt))
  refine ⟨h.nodup, valid, ?_, ?_, ?_⟩
  · rw [h.length]
    congr 1
    refine List.countP_congr fun v hv => ?_
    unfold isCandidate
    by_cases hn : v.length = n
    · obtain ⟨s, h1, h2, h3⟩ := hfin v hv hn
      rw [h1]
      simp only [decide_eq_true_eq, beq_iff_eq, hn, iff_true]
      exact comparable_of_small h2 h3
    · rw [hlen v hv hn]
      simp [hn]
  · refine (List.pairwise_iff_getElem.2 fun a b ha hb hab => ?_)
    have hp := List.pairwise_iff_getElem.1 h.sorted a b ha hb hab
    intro v w hv hw
    have mv := List.mem_of_getElem? hv
    have mw := List.mem_of_getElem? hw
    have nv : v.length = n := by
      obtain ⟨v', e1, e2⟩ := valid _ (List.getElem_mem ha)
      rw [hv] at e1; cases e1; exact e2
    have nw : w.length = n := by
      obtain ⟨v', e1, e2⟩ := valid _ (List.getElem_mem hb)
      rw [hw] at e1; cases e1; exact e2
    obtain ⟨s, s1, s2, s3⟩ := score _ v hv nv
    obtain ⟨t, t1, t2, t3⟩ := score _ w hw nw
    exact hok v mv w mw nv nw s t s2 t2 s3 t3 (step s3 t3 (hp s t s1 t1))
  · intro i hi j hj v w hv hw nw
    have nv : v.length = n := by
      obtain ⟨v', e1, e2⟩ := valid i hi
      rw [hv] at e1; cases e1; exact e2
    obtain ⟨s, s1, s2, s3⟩ := score _ v hv nv
    obtain ⟨t, t1, t2, t3⟩ := score _ w hw nw
    exact hok v (List.mem_of_getElem? hv) w (List.mem_of_getElem? hw) nv nw s t s2 t2 s3 t3 (step s3 t3 (h.best i hi j hj s t s1 t1))

theorem abs_cosine_le (v w : List ℝ) : |cosine v w| ≤ 1 := by
  unfold cosine
  have := abs_inner_le v w
  have hn : 0 ≤ len v * len w := mul_nonneg (Real.sqrt_nonneg _) (Real.sqrt_nonneg _)
  rw [abs_div, abs_of_nonneg hn]
  exact div_le_one_of_le₀ this hn

/-- Half of the last place at the bottom of the range, after a square root. -/
theorem sqrt_η_le : Real.sqrt η ≤ 1 / 2 ^ 537 := by
  rw [Real.sqrt_le_left (by positivity), η_eq, div_pow, one_pow, ← pow_mul]
  exact one_div_le_one_div_of_le (by positivity) (pow_le_pow_right₀ (by norm_num) (by norm_num))

theorem eps3_le {n : Nat} (h : n ≤ 2 ^ 20) : (1 + u) ^ (n + 3) - 1 ≤ (n + 4) * u := by
  have h1 := eps_le h
  have hn := dim_le h
  have hn0 : (0 : ℝ) ≤ n := Nat.cast_nonneg n
  have hu := u_pos
  have hu1 : u ≤ 1 / 2 ^ 50 := by rw [u_val]; norm_num
  have h2 : (1 + u) ^ 2 ≤ 1 + 17 / 8 * u := by
    have : u * u ≤ 1 / 2 ^ 50 * u := mul_le_mul_of_nonneg_right hu1 hu.le
    have e : (1 + u) ^ 2 = 1 + 2 * u + u * u := by ring
    rw [e]; linarith
  have h3 : (1 + u) ^ (n + 1) ≤ 1 + (n + 3 / 2) * u := by linarith
  have e : (1 + u) ^ (n + 3) = (1 + u) ^ (n + 1) * (1 + u) ^ 2 := by rw [← pow_add]
  have h4 := mul_le_mul h3 h2 (by positivity) (by positivity)
  have h5 : (n + 3 / 2) * u * (17 / 8 * u) ≤ 1 / 8 * u := by
    have : (n + 3 / 2) * u ≤ (2 ^ 20 + 3 / 2) * (1 / 2 ^ 50) := mul_le_mul (by linarith) hu1 hu.le (by positivity)
    have h6 := mul_le_mul_of_nonneg_right this (show 0 ≤ 17 / 8 * u by positivity)
    refine h6.trans ?_
    rw [show (2 ^ 20 + 3 / 2) * (1 / 2 ^ 50) * (17 / 8 * u) = ((2 ^ 20 + 3 / 2) * (1 / 2 ^ 50) * (17 / 8)) * u by ring]
    exact mul_le_mul_of_nonneg_right (by norm_num) hu.le
  rw [e]
  calc (1 + u) ^ (n + 1) * (1 + u) ^ 2 - 1 ≤ (1 + (n + 3 / 2) * u) * (1 + 17 / 8 * u) - 1 := by linarith
    _ = (n + 3 / 2) * u + 17 / 8 * u + (n + 3 / 2) * u * (17 / 8 * u) := by ring
    _ ≤ (n + 3 / 2) * u + 17 / 8 * u + 1 / 8 * u := by linarith
    _ ≤ (n + 4) * u := by linarith

theorem l1_nonneg' (v w : List ℝ) : 0 ≤ l1 v w := by
  unfold l1
  refine List.sum_nonneg fun x hx => ?_
  obtain ⟨p, _, rfl⟩ := List.mem_map.1 hx
  exact abs_nonneg _

/-- `euclid_err` for vectors that are not extremely long. -/
theorem euclid_err' {v w : List F64} (hl : v.length = w.length) (hn : v.length ≤ 2 ^ 20) {s : F64} (h : euclideanDistance v w = some s) (hf : Fin s) :
    |val s - l1 (vals v) (vals w)| ≤ (v.length + 4) * u * l1 (vals v) (vals w) + v.length / 2 ^ 536 := by
  refine (euclid_err hl h hf).trans (add_le_add (mul_le_mul_of_nonneg_right (eps3_le hn) (l1_nonneg' _ _)) ?_)
  have h1 := eps_le hn
  have h2 := dim_le hn
  have hu := u_pos
  have hu1 : u ≤ 1 / 2 ^ 50 := by rw [u_val]; norm_num
  have hn0 : (0 : ℝ) ≤ v.length := Nat.cast_nonneg _
  have h3 : (1 + u) ^ (v.length + 1) ≤ 2 := by
    have : (v.length + 3 / 2 : ℝ) * u ≤ (2 ^ 20 + 3 / 2) * (1 / 2 ^ 50) := mul_le_mul (by linarith) hu1 hu.le (by positivity)
    have h4 : ((2 : ℝ) ^ 20 + 3 / 2) * (1 / 2 ^ 50) ≤ 1 := by norm_num
    linarith
  have h5 : (v.length : ℝ) * Real.sqrt η ≤ v.length * (1 / 2 ^ 537) := mul_le_mul_of_nonneg_left sqrt_η_le hn0
  refine (mul_le_mul h3 h5 (by positivity) (by norm_num)).trans (le_of_eq ?_)
  have e : (2 : ℝ) ^ 537 = 2 * 2 ^ 536 := by rw [← pow_succ']
  rw [e]
  generalize (2 : ℝ) ^ 536 = P
  by_cases hP : P = 0
  · rw [hP]; simp
  · field_simp

theorem term_fin {a b : F64} (ha : Fin a ∧ |val a| ≤ BIG) (hb : Fin b ∧ |val b| ≤ BIG) :
    Fin (sqrt (mul (sub a b) (sub a b))) ∧ |val (sqrt (mul (sub a b) (sub a b)))| ≤ 8 * BIG := by
  have hu := u_pos
  have hη := η_lt
  have hη0 := η_pos
  have hu1 : u ≤ 1 / 2 ^ 50 := by rw [u_val]; norm_num
  have hu2 : u ≤ 1 / 100 := hu1.trans (by norm_num)
  have hB := big_ge
  have hh := big_half
  have hd : |val a - val b| ≤ 2 * BIG := by
    have := abs_sub (val a) (val b)
    linarith [ha.2, hb.2]
  have hBB : BIG ≤ BIG * BIG := by nlinarith
  have h1 : |val a - val b| * (1 + u) ≤ 2 * BIG * (1 + 1 / 100) := mul_le_mul hd (by linarith) (by linarith) (by linarith)
  have fs : Fin (sub a b) := sub_fin ha.1 hb.1 (by rw [half_add]; linarith)
  have he := (sub_err fs).2.2
  have hs : |val (sub a b)| ≤ 3 * BIG := by
    have h2 := abs_sub_abs_le_abs_sub (val (sub a b)) (val a - val b)
    have h3 : u * |val a - val b| ≤ 1 / 100 * (2 * BIG) := mul_le_mul hu2 hd (abs_nonneg _) (by norm_num)
    linarith
  have hm : |val (sub a b) * val (sub a b)| ≤ 9 * (BIG * BIG) := by
    rw [abs_mul]
    refine (mul_le_mul hs hs (abs_nonneg _) (by linarith)).trans (le_of_eq (by ring))
  have hm1 : |val (sub a b) * val (sub a b)| * (1 + u) ≤ 9 * (BIG * BIG) * (1 + 1 / 100) :=
    mul_le_mul hm (by linarith) (by linarith) (by nlinarith)
  have fm : Fin (mul (sub a b) (sub a b)) := mul_fin fs fs (by rw [half_add]; linarith)
  obtain ⟨fr, r0, hr⟩ := sqrt_err fm (mul_self_nonneg' _)
  refine ⟨fr, ?_⟩
  have ht := (term_err fr).2.2
  have h4 : (1 + u) ^ 3 - 1 ≤ 1 := by
    have := eps3_le (n := 0) (by norm_num)
    simp only [Nat.cast_zero, zero_add] at this
    linarith
  have h5 : ((1 + u) ^ 3 - 1) * |val a - val b| ≤ 1 * (2 * BIG) := mul_le_mul h4 hd (abs_nonneg _) (by norm_num)
  have h6 : Real.sqrt η ≤ 1 := by rw [Real.sqrt_le_left (by norm_num)]; linarith
  have h7 : (1 + u) * Real.sqrt η ≤ 2 * 1 := mul_le_mul (by linarith) h6 (Real.sqrt_nonneg _) (by norm_num)
  have h8 := abs_sub_abs_le_abs_sub (val (sqrt (mul (sub a b) (sub a b)))) |val a - val b|
  rw [abs_abs] at h8
  linarith

/-- The distance between modest vectors is finite. -/
theorem euclid_fin {v w : List F64} (hl : v.length = w.length) (hn : v.length ≤ 2 ^ 20) (hv : Modest v) (hw : Modest w) :
    ∃ s, euclideanDistance v w = some s ∧ Fin s := by
  have hfold : ∀ (l : List (F64 × F64)) (s : F64),
      l.foldl (fun r p => add r (sqrt (mul (sub p.1 p.2) (sub p.1 p.2)))) s = (l.map (fun p => sqrt (mul (sub p.1 p.2) (sub p.1 p.2)))).foldl add s := by
    intro l
    induction l with
    | nil => intro s; rfl
    | cons p l ih => intro s; exact ih _
  unfold euclideanDistance
  rw [if_neg (by simpa using hl)]
  refine ⟨_, rfl, ?_⟩
  show Fin ((v.zip w).foldl (fun r p => add r (sqrt (mul (sub p.1 p.2) (sub p.1 p.2)))) (fin false 0))
  rw [hfold]
  have hz : (v.zip w).length = v.length := by rw [List.length_zip, hl, min_self]
  have hterm : ∀ p ∈ v.zip w, Fin (sqrt (mul (sub p.1 p.2) (sub p.1 p.2))) ∧ |val (sqrt (mul (sub p.1 p.2) (sub p.1 p.2)))| ≤ 8 * BIG :=
    fun p hp => term_fin (hv p.1 (List.of_mem_zip hp).1) (hw p.2 (List.of_mem_zip hp).2)
  refine sum_fin _ _ ⟨_, _, rfl⟩ ?_ ?_
  · intro t ht
    obtain ⟨p, hp, rfl⟩ := List.mem_map.1 ht
    exact (hterm p hp).1
  · rw [val_zero, abs_zero, zero_add, List.map_map, List.length_map, hz]
    have h1 : ((v.zip w).map ((fun t => |val t|) ∘ fun p => sqrt (mul (sub p.1 p.2) (sub p.1 p.2)))).sum ≤ v.length * (8 * BIG) := by
      have : ∀ p ∈ v.zip w, ((fun t => |val t|) ∘ fun p : F64 × F64 => sqrt (mul (sub p.1 p.2) (sub p.1 p.2))) p ≤ (0 : ℝ) * 0 + 8 * BIG := by
        intro p hp
        have := (hterm p hp).2
        simp only [Function.comp, zero_mul, zero_add]
        exact this
      have h2 := sum_map_le this
      rw [sum_affine (fun _ => (0 : ℝ)), hz] at h2
      simpa using h2
    have hu := u_pos
    have hu1 : u ≤ 1 / 2 ^ 50 := by rw [u_val]; norm_num
    have hd := dim_le hn
    have hB := big_ge
    have hh := big_half
    have h3 : (1 + u) ^ v.length ≤ 2 := by
      have h4 := eps_le hn
      have h5 : (1 + u) ^ v.length ≤ (1 + u) ^ (v.length + 1) := pow_le_pow_right₀ (by linarith) (by omega)
      have : (v.length + 3 / 2 : ℝ) * u ≤ (2 ^ 20 + 3 / 2) * (1 / 2 ^ 50) := mul_le_mul (by linarith) hu1 hu.le (by positivity)
      have h6 : ((2 : ℝ) ^ 20 + 3 / 2) * (1 / 2 ^ 50) ≤ 1 := by norm_num
      linarith
    have h0 : 0 ≤ ((v.zip w).map ((fun t => |val t|) ∘ fun p => sqrt (mul (sub p.1 p.2) (sub p.1 p.2)))).sum := by
      refine List.sum_nonneg fun x hx => ?_
      obtain ⟨p, _, rfl⟩ := List.mem_map.1 hx
      exact abs_nonneg _
    have h7 := mul_le_mul h3 h1 h0 (by norm_num)
    have h8 : (v.length : ℝ) * (8 * BIG) ≤ 2 ^ 20 * (8 * BIG) := mul_le_mul_of_nonneg_right hd (by linarith)
    have hBB : 8 * BIG ≤ BIG * BIG := by
      have h9 : (8 : ℝ) ≤ BIG := by
        unfold BIG
        calc (8 : ℝ) = 2 ^ 3 := by norm_num
          _ ≤ 2 ^ 500 := pow_le_pow_right₀ (by norm_num) (by norm_num)
      exact mul_le_mul_of_nonneg_right h9 (by linarith)
    have h10 : (2 : ℝ) ^ 20 * (8 * BIG) ≤ 2 ^ 20 * (BIG * BIG) := mul_le_mul_of_nonneg_left hBB (by positivity)
    linarith

theorem euclid_small {v w : List F64} (hl : v.length = w.length) (hn : v.length ≤ 2 ^ 20) (hv : Modest v) (hw : Modest w) {s : F64}
    (h : euclideanDistance v w = some s) (hf : Fin s) : |val s| ≤ 2 ^ 1000 := by
  have he := euclid_err' hl hn h hf
  have hd := dim_le hn
  have hn0 : (0 : ℝ) ≤ v.length := Nat.cast_nonneg _
  have hB := big_ge
  have hu := u_pos
  have hu1 : u ≤ 1 / 2 ^ 50 := by rw [u_val]; norm_num
  have hz : (v.zip w).length = v.length := by rw [List.length_zip, hl, min_self]
  have h1 : l1 (vals v) (vals w) ≤ v.length * (2 * BIG) := by
    have e : l1 (vals v) (vals w) = ((v.zip w).map (fun p => |val p.1 - val p.2|)).sum := by
      unfold l1 vals
      rw [List.zip_map, List.map_map]
      rfl
    have : ∀ p ∈ v.zip w, |val p.1 - val p.2| ≤ (0 : ℝ) * 0 + 2 * BIG := by
      intro p hp
      have h1 : |val p.1| ≤ BIG := (hv p.1 (List.of_mem_zip hp).1).2
      have h2 : |val p.2| ≤ BIG := (hw p.2 (List.of_mem_zip hp).2).2
      have := abs_sub (val p.1) (val p.2)
      linarith
    have h2 := sum_map_le this
    rw [sum_affine (fun _ => (0 : ℝ)), hz] at h2
    rw [e]
    simpa using h2
  have h0 := l1_nonneg' (vals v) (vals w)
  have h2 : (v.length + 4 : ℝ) * u ≤ 1 := by
    have : (v.length + 4 : ℝ) * u ≤ (2 ^ 20 + 4) * (1 / 2 ^ 50) := mul_le_mul (by linarith) hu1 hu.le (by positivity)
    have h4 : ((2 : ℝ) ^ 20 + 4) * (1 / 2 ^ 50) ≤ 1 := by norm_num
    linarith
  have h3 : (v.length + 4 : ℝ) * u * l1 (vals v) (vals w) ≤ 1 * l1 (vals v) (vals w) := mul_le_mul_of_nonneg_right h2 h0
  have h4 : (v.length : ℝ) / 2 ^ 536 ≤ v.length := div_le_self hn0 (one_le_pow₀ (by norm_num))
  have h5 := abs_sub_abs_le_abs_sub (val s) (l1 (vals v) (vals w))
  rw [abs_of_nonneg h0] at h5
  have h6 : (v.length : ℝ) * (2 * BIG) ≤ 2 ^ 20 * (2 * BIG) := mul_le_mul_of_nonneg_right hd (by linarith)
  have h7 : (2 : ℝ) ^ 1000 = BIG * BIG := by unfold BIG; rw [← pow_add]
  have h8 : (2 : ℝ) ^ 30 * BIG ≤ BIG * BIG := by
    refine mul_le_mul_of_nonneg_right ?_ (by linarith)
    unfold BIG
    exact pow_le_pow_right₀ (by norm_num) (by norm_num)
  rw [h7]
  linarith

end F64
end Trypo
