import Verif.Proofs.F64Sum
import Verif.Proofs.MathUtils
import Verif.Proofs.F64Cos

/-!
# Means and distances in float64
-/

namespace Trypo
namespace F64
open Spec

attribute [local irreducible] UNIT TOP

/-! ### Counting -/

theorem add_same (s : Bool) (a b : Nat) : add (fin s a) (fin s b) = mk s (a + b) 1 := by
  simp only [add, if_true]

theorem add_units {a b : Nat} (h : a + b ≤ 2 ^ 53) : add (fin false (a * UNIT)) (fin false (b * UNIT)) = fin false ((a + b) * UNIT) := by
  rw [add_same, ← Nat.add_mul, mk_exact false (units_rep h) (units_top h)]

theorem add_ofNat {a b : Nat} (h : a + b ≤ 2 ^ 53) : add (ofNat a) (ofNat b) = ofNat (a + b) := by
  rw [ofNat_eq (n := a) (by omega), ofNat_eq (n := b) (by omega), ofNat_eq h, add_units h]

theorem count_gen {f : Nat → F64} {g : F64 → F64} {b : Nat} (h : ∀ c, c + 1 ≤ b → g (f c) = f (c + 1)) :
    ∀ (l : List (List F64)) (c : Nat), c + l.length ≤ b → l.foldl (fun n _ => g n) (f c) = f (c + l.length) := by
  intro l
  induction l with
  | nil => intro c _; rfl
  | cons v l ih =>
    intro c hc
    simp only [List.length_cons] at hc
    rw [List.foldl_cons, h c (by omega), ih (c + 1) (by omega), List.length_cons]
    exact congrArg f (by omega)

theorem count_ofNat (l : List (List F64)) (c : Nat) (h : c + l.length ≤ 2 ^ 53) :
    l.foldl (fun n _ => add n (ofNat 1)) (ofNat c) = ofNat (c + l.length) :=
  count_gen (f := ofNat) (g := fun n => add n (ofNat 1)) (b := 2 ^ 53) (fun _ hc => add_ofNat hc) l c h

/-! ### VecMean -/

/-- The column `j`. -/
def col (j : Nat) (vs : List (List F64)) : List F64 := vs.map (fun v => v.getD j (fin false 0))

theorem vecMeanLoop_getD {F : Type} [GoFloat F] (j : Nat) (d : F) : ∀ (rest : List (List F)) (res : List F) (n : F), j < res.length →
    (∀ v ∈ rest, v.length = res.length) →
    (vecMeanLoop res n rest).1.getD j d =
      GoFloat.div ((rest.map (fun v => v.getD j d)).foldl GoFloat.add (res.getD j d)) (rest.foldl (fun n _ => GoFloat.add n (GoFloat.ofNat 1)) n) := by
  intro rest
  induction rest with
  | nil =>
    intro res c hj _
    simp only [vecMeanLoop, List.map_nil, List.foldl_nil, List.getD_eq_getElem?_getD, List.getElem?_map, List.getElem?_eq_getElem hj]
    rfl
  | cons v rest ih =>
    intro res c hj hl
    have hv : v.length = res.length := hl v (by simp)
    have hz : (List.zipWith GoFloat.add res v).length = res.length := by rw [List.length_zipWith, hv, min_self]
    have hg : (List.zipWith GoFloat.add res v).getD j d = GoFloat.add (res.getD j d) (v.getD j d) := by
      simp only [List.getD_eq_getElem?_getD, List.getElem?_zipWith]
      rw [List.getElem?_eq_getElem hj, List.getElem?_eq_getElem (hv ▸ hj)]
      rfl
    simp only [vecMeanLoop]
    rw [if_neg (by simpa using hv), ih _ _ (by omega) (fun w hw => by rw [hz]; exact hl w (by simp [hw])), hg]
    rfl

theorem vecMean_get (j : Nat) (v : List F64) (vs : List (List F64)) (hj : j < v.length) (hn : (v :: vs).length ≤ 2 ^ 53)
    (hl : ∀ w ∈ vs, w.length = v.length) :
    (vecMean (v :: vs)).1.getD j (fin false 0) = div ((col j vs).foldl add (v.getD j (fin false 0))) (ofNat (v :: vs).length) := by
  have h1 := count_ofNat vs 1 (by simpa [add_comm] using hn)
  rw [List.length_cons, Nat.add_comm, ← h1]
  exact vecMeanLoop_getD j (fin false 0) vs v _ hj hl

theorem val_zero : val (fin false 0) = 0 := by rw [val_fin]; simp

theorem val_getD (j : Nat) (v : List F64) : val (v.getD j (fin false 0)) = comp j (vals v) := by
  unfold comp vals
  simp only [List.getD_eq_getElem?_getD, List.getElem?_map]
  cases v[j]? <;> simp [val_zero]

theorem vals_col (j : Nat) (vs : List (List F64)) : ((col j vs).map val).sum = compSum j (vs.map vals) := by
  unfold col compSum
  rw [List.map_map, List.map_map]
  congr 1
  refine List.map_congr_left fun v _ => ?_
  exact val_getD j v

/-- The mean of a column, where the result is finite. -/
theorem mean_err (j : Nat) (vs : List (List F64)) (hflag : (vecMean vs).2 = true) (hn : vs.length ≤ 2 ^ 53)
    (hf : Fin ((vecMean vs).1.getD j (fin false 0))) :
    |val ((vecMean vs).1.getD j (fin false 0)) - compSum j (vs.map vals) / vs.length| ≤
      ((1 + u) ^ vs.length - 1) * (((col j vs).map (fun x => |val x|)).sum / vs.length) + η := by
  cases vs with
  | nil => simp [vecMean] at hflag
  | cons v vs =>
    have hη := η_pos
    have hu := u_pos
    have hl := (vecMeanLoop_flag vs v (GoFloat.ofNat 1)).1 hflag
    have hlen : (0 : ℝ) < ((v :: vs).length : ℝ) := by simp only [List.length_cons]; positivity
    by_cases hj : j < v.length
    · have e : (vecMean (v :: vs)).1.getD j (fin false 0) = div ((col j vs).foldl add (v.getD j (fin false 0))) (ofNat (v :: vs).length) :=
        vecMean_get j v vs hj hn hl
      rw [e] at hf ⊢
      obtain ⟨fn, vn⟩ := ofNat_exact hn
      obtain ⟨fs, _, hd⟩ := div_err fn hf
      rw [vn] at hd
      obtain ⟨_, _, hs⟩ := sum_err _ _ fs
      have hcl : (col j vs).length = vs.length := by unfold col; simp
      have e1 : val (v.getD j (fin false 0)) + ((col j vs).map val).sum = compSum j ((v :: vs).map vals) := by
        rw [← vals_col]; rfl
      have e2 : |val (v.getD j (fin false 0))| + ((col j vs).map (fun x => |val x|)).sum = ((col j (v :: vs)).map (fun x => |val x|)).sum := rfl
      rw [e1, e2, hcl] at hs
      have hX : |compSum j ((v :: vs).map vals)| ≤ ((col j (v :: vs)).map (fun x => |val x|)).sum := by
        rw [← vals_col]
        have := abs_sum_sub (f := val) (g := fun _ => 0) (h := fun x => |val x|) (l := col j (v :: vs)) (by simp)
        simpa using this
      have hp := one_le_pow_u vs.length
      rw [List.length_cons, pow_succ]
      rw [← List.length_cons (a := v)]
      generalize val ((col j vs).foldl add (v.getD j (fin false 0))) = s at *
      generalize compSum j ((v :: vs).map vals) = X at *
      generalize ((col j (v :: vs)).map (fun x => |val x|)).sum = A at *
      generalize ((v :: vs).length : ℝ) = n at *
      generalize (1 + u) ^ vs.length = P at *
      generalize val (div ((col j vs).foldl add (v.getD j (fin false 0))) (ofNat (v :: vs).length)) = q at *
      have hsA : |s| ≤ P * A := by
        have := abs_sub_abs_le_abs_sub s X
        linarith
      have e : q - X / n = (q - s / n) + (s - X) / n := by ring
      rw [e]
      refine (abs_add_le _ _).trans ?_
      rw [abs_div (s - X), abs_of_pos hlen]
      have h1 : |s / n| ≤ P * (A / n) := by
        rw [abs_div, abs_of_pos hlen, ← mul_div_assoc]; exact div_le_div_of_nonneg_right hsA hlen.le
      have h2 : |s - X| / n ≤ (P - 1) * (A / n) := by
        rw [← mul_div_assoc]; exact div_le_div_of_nonneg_right hs hlen.le
      have h3 := mul_le_mul_of_nonneg_left h1 hu.le
      linarith
    · have hl2 : (vecMean (v :: vs)).1.length = v.length := vecMeanLoop_length vs v _
      have e1 : ((vecMean (v :: vs)).1.getD j (fin false 0)) = fin false 0 := by
        rw [List.getD_eq_getElem?_getD, List.getElem?_eq_none (by omega)]; rfl
      have e2 : col j (v :: vs) = (v :: vs).map (fun _ => fin false 0) := by
        unfold col
        refine List.map_congr_left fun w hw => ?_
        have : w.length = v.length := by
          rcases List.mem_cons.1 hw with rfl | hw
          · rfl
          · exact hl w hw
        rw [List.getD_eq_getElem?_getD, List.getElem?_eq_none (by omega)]; rfl
      rw [← vals_col, e1, e2, val_zero, List.map_map, List.map_map]
      simp [Function.comp_def, val_zero, hη.le]

/-- The mean of a column is finite where the sum is far from overflow. -/
theorem mean_fin (j : Nat) (vs : List (List F64)) (hflag : (vecMean vs).2 = true) (hn : vs.length ≤ 2 ^ 53)
    (hf : ∀ v ∈ vs, Fin (v.getD j (fin false 0)))
    (hb : (1 + u) ^ vs.length * ((col j vs).map (fun x => |val x|)).sum < HALF) :
    Fin ((vecMean vs).1.getD j (fin false 0)) := by
  cases vs with
  | nil => simp [vecMean] at hflag
  | cons v vs =>
    have hη := η_pos
    have hu := u_pos
    have hl := (vecMeanLoop_flag vs v (GoFloat.ofNat 1)).1 hflag
    by_cases hj : j < v.length
    · have e : (vecMean (v :: vs)).1.getD j (fin false 0) = div ((col j vs).foldl add (v.getD j (fin false 0))) (ofNat (v :: vs).length) :=
        vecMean_get j v vs hj hn hl
      rw [e]
      have hcl : (col j vs).length = vs.length := by unfold col; simp
      have e2 : |val (v.getD j (fin false 0))| + ((col j vs).map (fun x => |val x|)).sum = ((col j (v :: vs)).map (fun x => |val x|)).sum := rfl
      have hA : 0 ≤ ((col j (v :: vs)).map (fun x => |val x|)).sum :=
        List.sum_nonneg (by intro x hx; obtain ⟨p, _, rfl⟩ := List.mem_map.1 hx; exact abs_nonneg _)
      have hp := one_le_pow_u vs.length
      have hb' : (1 + u) ^ vs.length * ((col j (v :: vs)).map (fun x => |val x|)).sum < HALF := by
        refine lt_of_le_of_lt (mul_le_mul_of_nonneg_right ?_ hA) hb
        rw [List.length_cons]
        exact pow_le_pow_right₀ (by linarith) (by omega)
      have fs : Fin ((col j vs).foldl add (v.getD j (fin false 0))) := by
        refine sum_fin _ _ (hf v (by simp)) ?_ (by rw [e2, hcl]; exact hb')
        intro t ht
        obtain ⟨w, hw, rfl⟩ := List.mem_map.1 ht
        exact hf w (by simp [hw])
      obtain ⟨_, _, hs⟩ := sum_err _ _ fs
      have e1 : val (v.getD j (fin false 0)) + ((col j vs).map val).sum = ((col j (v :: vs)).map val).sum := rfl
      rw [e1, e2, hcl] at hs
      have hX : |((col j (v :: vs)).map val).sum| ≤ ((col j (v :: vs)).map (fun x => |val x|)).sum := by
        have := abs_sum_sub (f := val) (g := fun _ => 0) (h := fun x => |val x|) (l := col j (v :: vs)) (by simp)
        simpa using this
      obtain ⟨fn, vn⟩ := ofNat_exact hn
      have hn1 : (1 : ℝ) ≤ ((v :: vs).length : ℝ) := by simp only [List.length_cons]; push_cast; linarith [(Nat.cast_nonneg vs.length : (0 : ℝ) ≤ _)]
      refine div_fin fs fn (by rw [vn]; linarith) ?_
      rw [vn, half_add]
      generalize val ((col j vs).foldl add (v.getD j (fin false 0))) = s at *
      generalize ((col j (v :: vs)).map val).sum = X at *
      generalize ((col j (v :: vs)).map (fun x => |val x|)).sum = A at *
      generalize ((v :: vs).length : ℝ) = n at *
      generalize (1 + u) ^ vs.length = P at *
      have hsA : |s| ≤ P * A := by
        have := abs_sub_abs_le_abs_sub s X
        linarith
      have h1 : |s / n| ≤ |s| := by
        rw [abs_div, abs_of_pos (by linarith : (0 : ℝ) < n)]
        exact div_le_self (abs_nonneg _) hn1
      have hη1 := η_lt
      have hh := half_ge
      have hu2 : u ≤ 1 / 4 := by rw [u_val]; norm_num
      have h2 : |s / n| * (1 + u) ≤ HALF * (1 + 1 / 4) := mul_le_mul (h1.trans (hsA.trans hb'.le)) (by linarith) (by linarith) (by linarith)
      have hh2 : 4 ≤ HALF := by
        have := big_half; have := big_ge; nlinarith
      linarith
    · have hl2 : (vecMean (v :: vs)).1.length = v.length := vecMeanLoop_length vs v _
      rw [List.getD_eq_getElem?_getD, List.getElem?_eq_none (by omega)]
      exact ⟨_, _, rfl⟩

/-! ### EuclideanDistance -/

theorem mul_self_nonneg' (d : F64) : 0 ≤ val (mul d d) := by
  have hU := unitR_pos
  have hmk : ∀ a b, 0 ≤ val (mk false a b) := by
    intro a b
    unfold mk
    cases roundMag a b with
    | none => exact le_refl 0
    | some k => rw [val_fin]; simp only [Bool.false_eq_true, if_false]; positivity
  rcases d with _ | s | ⟨s, k⟩
  · exact le_refl 0
  · exact le_refl 0
  · show 0 ≤ val (mk (s != s) (k * k) UNIT)
    rw [bne_self_eq_false]
    exact hmk _ _

theorem sqrt_fin_arg {x : F64} (h : Fin (sqrt x)) : Fin x := by
  rcases x with _ | s | ⟨s, k⟩
  · obtain ⟨_, _, h⟩ := h; cases h
  · obtain ⟨_, _, h⟩ := h; cases s <;> cases h
  · exact ⟨_, _, rfl⟩

theorem sqrt_sq_err {p d : ℝ} (hd : 0 ≤ d) (h : |p - d * d| ≤ u * (d * d) + η) :
    |Real.sqrt p - d| ≤ u * d + Real.sqrt η := by
  have hu := u_pos
  have hu1 := u_lt
  have hη := η_pos
  have hk := Real.sqrt_pos.2 hη
  have ek := Real.mul_self_sqrt hη.le
  obtain ⟨h1, h2⟩ := abs_le.1 h
  generalize Real.sqrt η = κ at *
  rw [abs_le]
  constructor
  · by_contra hc
    push Not at hc
    have hc' : Real.sqrt p < (1 - u) * d - κ := by linarith
    have hpos := (Real.sqrt_nonneg p).trans_lt hc'
    have h3 : p < ((1 - u) * d - κ) ^ 2 := (Real.sqrt_lt' hpos).1 hc'
    have h4 : κ * κ ≤ (1 - u) * d * κ := mul_le_mul_of_nonneg_right (by linarith) hk.le
    have h5 : (1 - u) * d * ((1 - u) * d) ≤ (1 - u) * (d * d) := by
      have : (1 - u) * (1 - u) ≤ (1 - u) * 1 := mul_le_mul_of_nonneg_left (by linarith) (by linarith)
      nlinarith [mul_nonneg hd hd]
    nlinarith
  · have : Real.sqrt p ≤ (1 + u) * d + κ := by
      rw [Real.sqrt_le_left (by positivity)]
      nlinarith [mul_nonneg hd hk.le, mul_nonneg hu.le (mul_nonneg hd hd), mul_nonneg (mul_nonneg hu.le hu.le) (mul_nonneg hd hd), mul_nonneg hu.le (mul_nonneg hd hk.le)]
    linarith

/-- One summand of the distance. -/
theorem term_err {a b : F64} (h : Fin (sqrt (mul (sub a b) (sub a b)))) :
    Fin a ∧ Fin b ∧ abs (val (sqrt (mul (sub a b) (sub a b))) - |val a - val b|) ≤ ((1 + u) ^ 3 - 1) * |val a - val b| + (1 + u) * Real.sqrt η := by
  have hu := u_pos
  obtain ⟨fd, _, hm⟩ := mul_err (sqrt_fin_arg h)
  obtain ⟨fa, fb, hs⟩ := sub_err fd
  refine ⟨fa, fb, ?_⟩
  have h0 := mul_self_nonneg' (sub a b)
  obtain ⟨_, _, hr⟩ := sqrt_err (sqrt_fin_arg h) h0
  have hk := Real.sqrt_nonneg η
  rw [abs_mul, ← abs_mul_abs_self (val (sub a b))] at hm
  have hq := sqrt_sq_err (abs_nonneg _) hm
  have hab := abs_abs_sub_abs_le (val (sub a b)) (val a - val b)
  generalize val (sqrt (mul (sub a b) (sub a b))) = r at *
  generalize Real.sqrt (val (mul (sub a b) (sub a b))) = q at *
  generalize Real.sqrt η = κ at *
  have hd0 := abs_nonneg (val (sub a b))
  have hD0 := abs_nonneg (val a - val b)
  generalize |val (sub a b)| = d at *
  generalize |val a - val b| = D at *
  obtain ⟨q1, q2⟩ := abs_le.1 hq
  obtain ⟨r1, r2⟩ := abs_le.1 hr
  obtain ⟨d1, d2⟩ := abs_le.1 (hab.trans hs)
  have hdD : d ≤ (1 + u) * D := by linarith
  have hq3 : u * q ≤ u * ((1 + u) * d + κ) := mul_le_mul_of_nonneg_left (by linarith) hu.le
  have hd4 : u * d ≤ u * ((1 + u) * D) := mul_le_mul_of_nonneg_left hdD hu.le
  have hd5 : u * (u * d) ≤ u * (u * ((1 + u) * D)) := mul_le_mul_of_nonneg_left hd4 hu.le
  rw [abs_le]
  have e : ((1 + u) ^ 3 - 1) * D = u * D + 2 * (u * ((1 + u) * D)) + u * (u * ((1 + u) * D)) := by ring
  rw [e]
  constructor <;> nlinarith

/-- The computed distance, where it is finite. -/
theorem euclid_err {v w : List F64} (hl : v.length = w.length) {s : F64} (h : euclideanDistance v w = some s) (hf : Fin s) :
    |val s - l1 (vals v) (vals w)| ≤
      ((1 + u) ^ (v.length + 3) - 1) * l1 (vals v) (vals w) + (1 + u) ^ (v.length + 1) * (v.length * Real.sqrt η) := by
  have hu := u_pos
  unfold euclideanDistance at h
  rw [if_neg (by simpa using hl)] at h
  cases h
  have hfold : ∀ (l : List (F64 × F64)) (s : F64),
      l.foldl (fun r p => add r (sqrt (mul (sub p.1 p.2) (sub p.1 p.2)))) s = (l.map (fun p => sqrt (mul (sub p.1 p.2) (sub p.1 p.2)))).foldl add s := by
    intro l
    induction l with
    | nil => intro s; rfl
    | cons p l ih => intro s; exact ih _
  have hl1 : l1 (vals v) (vals w) = ((v.zip w).map (fun p => |val p.1 - val p.2|)).sum := by
    unfold l1 vals
    rw [List.zip_map, List.map_map]
    rfl
  have hz : (v.zip w).length = v.length := by rw [List.length_zip, hl, min_self]
  change Fin ((v.zip w).foldl (fun r p => add r (sqrt (mul (sub p.1 p.2) (sub p.1 p.2)))) (fin false 0)) at hf
  change |val ((v.zip w).foldl (fun r p => add r (sqrt (mul (sub p.1 p.2) (sub p.1 p.2)))) (fin false 0)) - _| ≤ _
  rw [hfold] at hf ⊢
  obtain ⟨_, ht, hs⟩ := sum_err _ _ hf
  rw [val_zero] at hs
  simp only [zero_add, abs_zero, List.map_map, List.length_map, hz] at hs
  have hterm : ∀ p ∈ v.zip w, abs (val (sqrt (mul (sub p.1 p.2) (sub p.1 p.2))) - |val p.1 - val p.2|) ≤ ((1 + u) ^ 3 - 1) * |val p.1 - val p.2| + (1 + u) * Real.sqrt η :=
    fun p hp => (term_err (ht _ (List.mem_map_of_mem (f := fun p : F64 × F64 => sqrt (mul (sub p.1 p.2) (sub p.1 p.2))) hp))).2.2
  have e1 : |((v.zip w).map (fun p => val (sqrt (mul (sub p.1 p.2) (sub p.1 p.2))))).sum - l1 (vals v) (vals w)| ≤
      ((1 + u) ^ 3 - 1) * l1 (vals v) (vals w) + v.length * ((1 + u) * Real.sqrt η) := by
    rw [hl1, ← hz, ← sum_affine]
    exact abs_sum_sub hterm
  have e2 : ((v.zip w).map (fun p => |val (sqrt (mul (sub p.1 p.2) (sub p.1 p.2)))|)).sum ≤
      (1 + u) ^ 3 * l1 (vals v) (vals w) + v.length * ((1 + u) * Real.sqrt η) := by
    rw [hl1, ← hz, ← sum_affine]
    refine sum_map_le fun p hp => ?_
    have h1 := hterm p hp
    have h2 := abs_sub_abs_le_abs_sub (val (sqrt (mul (sub p.1 p.2) (sub p.1 p.2)))) |val p.1 - val p.2|
    rw [abs_abs] at h2
    linarith
  have hs' : |val (((v.zip w).map (fun p => sqrt (mul (sub p.1 p.2) (sub p.1 p.2)))).foldl add (fin false 0)) -
      ((v.zip w).map (fun p => val (sqrt (mul (sub p.1 p.2) (sub p.1 p.2))))).sum| ≤
      ((1 + u) ^ v.length - 1) * ((v.zip w).map (fun p => |val (sqrt (mul (sub p.1 p.2) (sub p.1 p.2)))|)).sum := hs
  have hp := one_le_pow_u v.length
  generalize val (((v.zip w).map (fun p => sqrt (mul (sub p.1 p.2) (sub p.1 p.2)))).foldl add (fin false 0)) = R at *
  generalize ((v.zip w).map (fun p => val (sqrt (mul (sub p.1 p.2) (sub p.1 p.2))))).sum = S at *
  generalize ((v.zip w).map (fun p => |val (sqrt (mul (sub p.1 p.2) (sub p.1 p.2)))|)).sum = T at *
  generalize l1 (vals v) (vals w) = X at *
  have e : R - X = (R - S) + (S - X) := by ring
  rw [e]
  refine (abs_add_le _ _).trans ?_
  calc _ ≤ ((1 + u) ^ v.length - 1) * ((1 + u) ^ 3 * X + v.length * ((1 + u) * Real.sqrt η)) +
        (((1 + u) ^ 3 - 1) * X + v.length * ((1 + u) * Real.sqrt η)) :=
        add_le_add (hs'.trans (mul_le_mul_of_nonneg_left e2 (by linarith))) e1
    _ = _ := by rw [pow_add, pow_succ]; ring

end F64
end Trypo
