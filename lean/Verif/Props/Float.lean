import Verif.Proofs.F64Search
import Verif.Proofs.F64Drift2
import Verif.Props.KNN
import Verif.Props.Centroid
import Verif.Proofs.ManagerHistory

/-!
# Properties C68-C72: what float64 rounding does to means, distances, searches and centroid vectors
-/

namespace Trypo
open GoFloat Spec F64

attribute [local irreducible] UNIT TOP

/-! ### C68 -/

/-- C68. A component of the computed mean that is finite differs from the exact mean by at most `((1 + 2^-53)^n - 1)` times the mean of the
magnitudes, plus half the smallest positive number. `n` is the number of vectors. -/
theorem C68_vecMean_error (vs : List (List F64)) (h : (vecMean vs).2 = true) (hn : vs.length ≤ 2 ^ 53) (j : Nat)
    (hf : Fin ((vecMean vs).1.getD j zero)) :
    |comp j (vals (vecMean vs).1) - compSum j (vs.map vals) / vs.length| ≤
      ((1 + u) ^ vs.length - 1) * (compSum j (vs.map (fun v => (vals v).map (fun x => |x|))) / vs.length) + η := by
  have e := mean_err j vs h hn hf
  rw [val_getD] at e
  have hc : ((col j vs).map (fun x => |val x|)).sum = compSum j (vs.map (fun v => (vals v).map (fun x => |x|))) := by
    unfold col compSum
    rw [List.map_map, List.map_map]
    congr 1
    refine List.map_congr_left fun v _ => ?_
    simp only [Function.comp, val_getD]
    unfold comp
    rw [List.getD_eq_getElem?_getD, List.getD_eq_getElem?_getD, List.getElem?_map]
    cases (vals v)[j]? <;> simp
  rwa [hc] at e

/-- C68, ordinary numbers. With at most `2^50` vectors of finite components of magnitude at most `M`, all components of the mean are finite
and within `2 n M 2^-53 + 2^-1075` of the exact mean. -/
theorem C68_vecMean_finite {M : ℝ} (hM : Bound M) (vs : List (List F64)) (h : (vecMean vs).2 = true) (hn : vs.length ≤ 2 ^ 50)
    (hc : ∀ v ∈ vs, ∀ x ∈ v, Fin x ∧ |val x| ≤ M) :
    (∀ x ∈ (vecMean vs).1, Fin x) ∧
    ∀ j, |comp j (vals (vecMean vs).1) - compSum j (vs.map vals) / vs.length| ≤ 2 * vs.length * u * M + η := by
  refine ⟨fin_of_getD (fun j _ => (mean_bound hM h hn hc j).1), fun j => ?_⟩
  have := (mean_bound hM h hn hc j).2
  rwa [val_getD] at this

namespace FloatExample

theorem val_nat {n : Nat} (h : n ≤ 2 ^ 53) : Fin (F64.ofNat n) ∧ val (F64.ofNat n) = n := ofNat_exact h

theorem bound_nat {n : Nat} (h1 : 1 ≤ n) (h2 : n ≤ 2 ^ 53) : Bound (n : ℝ) := by
  constructor
  · have : (1 : ℝ) ≤ n := by exact_mod_cast h1
    refine le_trans ?_ this
    rw [div_le_one (by positivity)]
    exact one_le_pow₀ (by norm_num)
  · have : (n : ℝ) ≤ 2 ^ 53 := by exact_mod_cast h2
    exact this.trans (pow_le_pow_right₀ (by norm_num) (by norm_num))

/-- Vectors of small non-negative integers. -/
def nats (l : List Nat) : List F64 := l.map F64.ofNat

theorem map_gen {f : Nat → F64} {l : List Nat} (h : ∀ n ∈ l, val (f n) = n) : vals (l.map f) = l.map (Nat.cast : Nat → ℝ) := by
  unfold vals
  rw [List.map_map]
  exact List.map_congr_left h

theorem vals_nats {l : List Nat} (h : ∀ n ∈ l, n ≤ 2 ^ 53) : vals (nats l) = l.map (Nat.cast : Nat → ℝ) :=
  map_gen fun n hn => (val_nat (h n hn)).2

theorem mem_nats {l : List Nat} {b : Nat} (h : ∀ n ∈ l, n ≤ b) (hb : b ≤ 2 ^ 53) : ∀ x ∈ nats l, Fin x ∧ |val x| ≤ b := by
  intro x hx
  obtain ⟨n, hn, rfl⟩ := List.mem_map.1 hx
  obtain ⟨f, v⟩ := val_nat ((h n hn).trans hb)
  refine ⟨f, ?_⟩
  rw [v, abs_of_nonneg (Nat.cast_nonneg n)]
  exact_mod_cast h n hn

theorem modest_nats {l : List Nat} (h : ∀ n ∈ l, n ≤ 2 ^ 53) : Modest (nats l) := by
  intro x hx
  obtain ⟨f, v⟩ := mem_nats h (le_refl _) x hx
  refine ⟨f, v.trans ?_⟩
  rw [Nat.cast_pow, Nat.cast_ofNat]
  exact pow_le_pow_right₀ (by norm_num) (by norm_num)

theorem moderate_nats {l : List Nat} (h : ∀ n ∈ l, n ≤ 2 ^ 53) {n : Nat} (hn : n ∈ l) (h1 : 1 ≤ n) : Moderate (nats l) := by
  refine ⟨modest_nats h, F64.ofNat n, List.mem_map_of_mem hn, ?_⟩
  rw [(val_nat (h n hn)).2, abs_of_nonneg (Nat.cast_nonneg n)]
  have : (1 : ℝ) ≤ n := by exact_mod_cast h1
  refine le_trans ?_ this
  rw [div_le_one (by positivity)]
  exact one_le_pow₀ (by norm_num)

end FloatExample
open FloatExample

/-- The mean of 1, 0, 0: a third, which is not a float64; it is computed to within `6 * 2^-53 + 2^-1075`. -/
example : |comp 0 (vals (vecMean [nats [1], nats [0], nats [0]]).1) - 1 / 3| ≤ 2 * 3 * u * (1 : Nat) + η := by
  have h := (C68_vecMean_finite (bound_nat (n := 1) (by omega) (by norm_num)) [nats [1], nats [0], nats [0]] (by decide +kernel) (by norm_num)
    (by
      intro v hv x hx
      have : ∃ n, n ≤ 1 ∧ v = nats [n] := by
        simp only [List.mem_cons, List.not_mem_nil, or_false] at hv
        rcases hv with rfl | rfl | rfl
        · exact ⟨1, by omega, rfl⟩
        · exact ⟨0, by omega, rfl⟩
        · exact ⟨0, by omega, rfl⟩
      obtain ⟨n, hn, rfl⟩ := this
      exact mem_nats (b := 1) (by simpa using hn) (by norm_num) x hx)).2 0
  have e : compSum 0 ([nats [1], nats [0], nats [0]].map vals) / (([nats [1], nats [0], nats [0]] : List (List F64)).length : ℝ) = 1 / 3 := by
    rw [List.map_cons, List.map_cons, List.map_cons, vals_nats (by simp), vals_nats (by simp)]
    simp [compSum, comp]
  rw [e] at h
  simpa using h

/-! ### C69 -/

/-- C69. For vectors of equal length `n ≤ 2^20` whose components are finite and at most `2^500` in magnitude, not all of them tiny
(some component at least `2^-480`), `CosineSimilarity` returns a finite number, within `(2 n + 8) 2^-53` of the exact cosine. So it is never
NaN, and never more than `1 + (2 n + 8) 2^-53` in magnitude. -/
theorem C69_cosine_error {v w : List F64} (hl : v.length = w.length) (hn : v.length ≤ 2 ^ 20) (hv : Moderate v) (hw : Moderate w) :
    ∃ s, cosineSimilarity v w = some s ∧ Fin s ∧ |val s - cosine (vals v) (vals w)| ≤ (2 * v.length + 8) * u ∧
      |val s| ≤ 1 + (2 * v.length + 8) * u := by
  obtain ⟨s, h1, h2, h3⟩ := cos_err hl hn hv hw
  refine ⟨s, h1, h2, h3, ?_⟩
  have h4 := abs_cosine_le (vals v) (vals w)
  have h5 := abs_sub_abs_le_abs_sub (val s) (cosine (vals v) (vals w))
  linarith

/-- The cosine of (3,4) and (4,3) is 24/25; it is computed to within 12 units of `2^-53`. -/
example : ∃ s, cosineSimilarity (nats [3, 4]) (nats [4, 3]) = some s ∧ Fin s ∧ |val s - 24 / 25| ≤ 12 * u := by
  have e1 : vals (nats [3, 4]) = [3, 4] := by rw [vals_nats (by simp)]; simp
  have e2 : vals (nats [4, 3]) = [4, 3] := by rw [vals_nats (by simp)]; simp
  obtain ⟨s, h1, h2, h3, _⟩ := C69_cosine_error (v := nats [3, 4]) (w := nats [4, 3]) rfl (by simp [nats])
    (moderate_nats (by simp) (n := 3) (by simp) (by omega)) (moderate_nats (by simp) (n := 4) (by simp) (by omega))
  refine ⟨s, h1, h2, ?_⟩
  have e3 : cosine (vals (nats [3, 4])) (vals (nats [4, 3])) = 24 / 25 := by
    rw [e1, e2]
    have h5 : Real.sqrt 25 = 5 := by rw [show (25 : ℝ) = 5 ^ 2 by norm_num]; exact Real.sqrt_sq (by norm_num)
    have l1 : len [3, 4] = 5 := by unfold len Spec.inner; norm_num [h5]
    have l2 : len [4, 3] = 5 := by unfold len Spec.inner; norm_num [h5]
    unfold cosine
    rw [l1, l2]
    unfold Spec.inner
    norm_num
  rw [e3] at h3
  refine h3.trans (le_of_eq ?_)
  have : (nats [3, 4]).length = 2 := rfl
  rw [this]
  push_cast
  ring

/-! ### C70 -/

/-- C70. For vectors of equal length `n ≤ 2^20` of finite components at most `2^500` in magnitude, `EuclideanDistance` returns a finite
number, within `(n + 4) 2^-53` (relative) plus `n 2^-536` (absolute) of the exact sum of the absolute differences (see C03 for why it is that
sum and not the Euclidean distance). -/
theorem C70_euclidean_error {v w : List F64} (hl : v.length = w.length) (hn : v.length ≤ 2 ^ 20) (hv : Modest v) (hw : Modest w) :
    ∃ s, euclideanDistance v w = some s ∧ Fin s ∧
      |val s - l1 (vals v) (vals w)| ≤ (v.length + 4) * u * l1 (vals v) (vals w) + v.length / 2 ^ 536 := by
  obtain ⟨s, h1, h2⟩ := euclid_fin hl hn hv hw
  exact ⟨s, h1, h2, euclid_err' hl hn h1 h2⟩

set_option exponentiation.threshold 600 in
example : ∃ s, euclideanDistance (nats [3, 4]) (nats [5, 1]) = some s ∧ Fin s ∧ |val s - 5| ≤ 6 * u * 5 + 2 / 2 ^ 536 := by
  have e1 : vals (nats [3, 4]) = [3, 4] := by rw [vals_nats (by simp)]; simp
  have e2 : vals (nats [5, 1]) = [5, 1] := by rw [vals_nats (by simp)]; simp
  obtain ⟨s, h1, h2, h3⟩ := C70_euclidean_error (v := nats [3, 4]) (w := nats [5, 1]) rfl (by simp [nats])
    (modest_nats (by simp)) (modest_nats (by simp))
  refine ⟨s, h1, h2, ?_⟩
  have e3 : l1 (vals (nats [3, 4])) (vals (nats [5, 1])) = 5 := by
    rw [e1, e2]; unfold l1; norm_num
  rw [e3] at h3
  refine h3.trans (le_of_eq ?_)
  have : (nats [3, 4]).length = 2 := rfl
  rw [this]
  push_cast
  ring

/-! ### C71 -/

/-- C71 (cosine searches). For a target of dimension `n ≤ 2^20`, if the target and all vectors of the pool with its dimension are ordinary
(`Moderate`), `KNNCos` returns `min k` (number of those) distinct indexes of such vectors, and a vector left out, or returned later, has an
exact cosine greater by at most `(4 n + 16) 2^-53`. `KFNCos` likewise with the order reversed. Nothing is lost to NaN. -/
theorem C71_cosine_searches (t : List F64) (pool : List (List F64)) (k : Nat) (hn : t.length ≤ 2 ^ 20) (ht : Moderate t)
    (hp : ∀ v ∈ pool, v.length = t.length → Moderate v) :
    (∃ r, knnCos t pool k = .ok r ∧ BestBy t.length
      (fun v w => cosine (vals t) (vals w) ≤ cosine (vals t) (vals v) + (4 * t.length + 16) * u) pool k r) ∧
    (∃ r, kfnCos t pool k = .ok r ∧ BestBy t.length
      (fun v w => cosine (vals t) (vals v) ≤ cosine (vals t) (vals w) + (4 * t.length + 16) * u) pool k r) := by
  have hnone : ∀ v ∈ pool, v.length ≠ t.length → cosineSimilarity t v = none := by
    intro v _ h
    unfold cosineSimilarity
    rw [if_pos (fun e => h e.symm)]
  have hfin : ∀ v ∈ pool, v.length = t.length → ∃ s, cosineSimilarity t v = some s ∧ Fin s ∧ |val s| ≤ 2 ^ 1000 := by
    intro v hv h
    obtain ⟨s, h1, h2, _, h4⟩ := C69_cosine_error h.symm hn ht (hp v hv h)
    refine ⟨s, h1, h2, h4.trans ?_⟩
    have h5 := (second_le hn).2
    have hu := u_pos
    have hu1 : u ≤ 1 := by rw [u_val]; norm_num
    have h6 : (2 : ℝ) ^ 3 ≤ 2 ^ 1000 := pow_le_pow_right₀ (by norm_num) (by norm_num)
    have h7 : (2 * (t.length : ℝ) + 8) * u = 2 * ((t.length + 2) * u) + 4 * u := by ring
    have h8 : (1 : ℝ) / 2 ^ 32 ≤ 1 := by norm_num
    rw [h7]
    generalize (2 : ℝ) ^ 1000 = B at *
    linarith
  have herr : ∀ v ∈ pool, v.length = t.length → ∀ s, cosineSimilarity t v = some s →
      |val s - cosine (vals t) (vals v)| ≤ (2 * t.length + 8) * u := by
    intro v hv h s hs
    obtain ⟨s', h1, _, h3, _⟩ := C69_cosine_error h.symm hn ht (hp v hv h)
    rw [hs] at h1; cases h1; exact h3
  obtain ⟨⟨r, h1, h2⟩, ⟨r', h1', h2'⟩, _⟩ := C06_prefabs_kbest t pool k
  refine ⟨⟨r, h1, bestBy_of_kbest h2 hnone hfin ?_⟩, ⟨r', h1', bestBy_of_kbest h2' hnone hfin ?_⟩⟩
  · intro v hv w hw nv nw s q hs hq _ _ hle
    simp only [Bool.false_eq_true, if_false] at hle
    have e1 := abs_le.1 (herr v hv nv s hs)
    have e2 := abs_le.1 (herr w hw nw q hq)
    linarith [e1.2, e2.1]
  · intro v hv w hw nv nw s q hs hq _ _ hle
    simp only [if_true] at hle
    have e1 := abs_le.1 (herr v hv nv s hs)
    have e2 := abs_le.1 (herr w hw nw q hq)
    linarith [e1.1, e2.2]

/-- C71 (distance searches). The same for `KNNEuc` and `KFNEuc`, with the exact sum of absolute differences, up to `(n + 4) 2^-53` of the two
sums plus `n 2^-535`. -/
theorem C71_euclidean_searches (t : List F64) (pool : List (List F64)) (k : Nat) (hn : t.length ≤ 2 ^ 20) (ht : Modest t)
    (hp : ∀ v ∈ pool, v.length = t.length → Modest v) :
    (∃ r, knnEuc t pool k = .ok r ∧ BestBy t.length
      (fun v w => l1 (vals t) (vals v) ≤ l1 (vals t) (vals w) + ((t.length + 4) * u * (l1 (vals t) (vals v) + l1 (vals t) (vals w)) +
        2 * (t.length / 2 ^ 536))) pool k r) ∧
    (∃ r, kfnEuc t pool k = .ok r ∧ BestBy t.length
      (fun v w => l1 (vals t) (vals w) ≤ l1 (vals t) (vals v) + ((t.length + 4) * u * (l1 (vals t) (vals v) + l1 (vals t) (vals w)) +
        2 * (t.length / 2 ^ 536))) pool k r) := by
  have hnone : ∀ v ∈ pool, v.length ≠ t.length → euclideanDistance t v = none := by
    intro v _ h
    unfold euclideanDistance
    rw [if_pos (fun e => h e.symm)]
  have hfin : ∀ v ∈ pool, v.length = t.length → ∃ s, euclideanDistance t v = some s ∧ Fin s ∧ |val s| ≤ 2 ^ 1000 := by
    intro v hv h
    obtain ⟨s, h1, h2⟩ := euclid_fin h.symm hn ht (hp v hv h)
    exact ⟨s, h1, h2, euclid_small h.symm hn ht (hp v hv h) h1 h2⟩
  have herr : ∀ v ∈ pool, v.length = t.length → ∀ s, euclideanDistance t v = some s → Fin s →
      |val s - l1 (vals t) (vals v)| ≤ (t.length + 4) * u * l1 (vals t) (vals v) + t.length / 2 ^ 536 :=
    fun v hv h s hs hf => euclid_err' h.symm hn hs hf
  obtain ⟨_, _, ⟨r, h1, h2⟩, ⟨r', h1', h2'⟩⟩ := C06_prefabs_kbest t pool k
  refine ⟨⟨r, h1, bestBy_of_kbest h2 hnone hfin ?_⟩, ⟨r', h1', bestBy_of_kbest h2' hnone hfin ?_⟩⟩
  · intro v hv w hw nv nw s q hs hq fs fq hle
    simp only [if_true] at hle
    have e1 := abs_le.1 (herr v hv nv s hs fs)
    have e2 := abs_le.1 (herr w hw nw q hq fq)
    have := e1.1
    have := e2.2
    generalize (t.length : ℝ) / 2 ^ 536 = τ at *
    linarith
  · intro v hv w hw nv nw s q hs hq fs fq hle
    simp only [Bool.false_eq_true, if_false] at hle
    have e1 := abs_le.1 (herr v hv nv s hs fs)
    have e2 := abs_le.1 (herr w hw nw q hq fq)
    have := e1.2
    have := e2.1
    generalize (t.length : ℝ) / 2 ^ 536 = τ at *
    linarith

/-- C71 through a centroid. `KNNLookup` on a centroid searching with `KNNCos` returns, of the datapoints not expired, `min k` (their number),
and none left out has an exact cosine with the query vector greater by more than `(4 n + 16) 2^-53`. -/
theorem C71_lookup {tk : Nat → Int} (hm : MonoClock tk) (c : Centroid F64) (hs : c.knn = knnCos) (v : List F64) (k : Nat) (drain : Bool) (p : Nat)
    (hn : v.length ≤ 2 ^ 20) (hv : Moderate v) (hc : ∀ d ∈ c.dps, d.vec.length = v.length ∧ Moderate d.vec) :
    ∃ out c' p' surv rest, c.knnLookup tk v k drain p = .ok ((out, c'), p') ∧ Survivors (tk p) (tk p') c.dps surv ∧
      (out ++ rest).Perm surv ∧ out.length = min k surv.length ∧
      (∀ d ∈ out, ∀ e ∈ rest, cosine (vals v) (vals e.vec) ≤ cosine (vals v) (vals d.vec) + (4 * v.length + 16) * u) ∧
      c'.dps = if drain then rest else surv := by
  obtain ⟨out, c', p', surv, rest, h1, h2, h3, h4, h5, h6⟩ := C17_knnLookup_best hm c false cosineSimilarity hs v k drain p
  have hsurv : ∀ d ∈ surv, d ∈ c.dps := fun d hd => (List.mem_filter.1 (h2.drops.subset hd)).1
  have hmem : ∀ d, d ∈ out ∨ d ∈ rest → d ∈ c.dps := fun d hd => hsurv d (h3.subset (List.mem_append.2 hd))
  have hcomp : ∀ d ∈ c.dps, ∃ s, cosineSimilarity v d.vec = some s ∧ Fin s ∧ Comparable false s ∧
      |val s - cosine (vals v) (vals d.vec)| ≤ (2 * v.length + 8) * u := by
    intro d hd
    obtain ⟨s, e1, e2, e3, e4⟩ := C69_cosine_error (hc d hd).1.symm hn hv (hc d hd).2
    refine ⟨s, e1, e2, comparable_of_small e2 (e4.trans ?_), e3⟩
    have h5 := (second_le hn).2
    have hu1 : u ≤ 1 := by rw [u_val]; norm_num
    have h6 : (2 : ℝ) ^ 3 ≤ 2 ^ 1000 := pow_le_pow_right₀ (by norm_num) (by norm_num)
    have h7 : (2 * (v.length : ℝ) + 8) * u = 2 * ((v.length + 2) * u) + 4 * u := by ring
    have h8 : (1 : ℝ) / 2 ^ 32 ≤ 1 := by norm_num
    rw [h7]
    generalize (2 : ℝ) ^ 1000 = B at *
    linarith
  refine ⟨out, c', p', surv, rest, h1, h2, h3, ?_, ?_, h6⟩
  · rw [h5]
    congr 1
    unfold candidates
    rw [List.countP_eq_length]
    intro d hd
    obtain ⟨s, e1, _, e3, _⟩ := hcomp d (hsurv d hd)
    simp only [e1, decide_eq_true_eq]
    exact e3
  · intro d hd e he
    obtain ⟨s, s1, s2, s3, s4⟩ := hcomp d (hmem d (.inl hd))
    obtain ⟨t, t1, t2, t3, t4⟩ := hcomp e (hmem e (.inr he))
    have hb := h4.best d hd e he s t s1 t1 t3
    unfold Better at hb
    simp only [Bool.false_eq_true, if_false] at hb
    have hle : val t ≤ val s := not_lt.1 (fun hlt => hb ((lt_iff_val s2 t2).2 hlt))
    have e1 := abs_le.1 s4
    have e2 := abs_le.1 t4
    linarith [e1.2, e2.1]

/-- Of (1,0), (3,4), (0,1), (7) the two with the largest cosine with (4,3): the vector of another dimension is skipped. -/
example : ∃ r, knnCos (nats [4, 3]) [nats [1, 0], nats [3, 4], nats [0, 1], nats [7]] (2 : Nat) = .ok r ∧ r.length = 2 ∧ r = [1, 0] := by
  obtain ⟨⟨r, h1, h2⟩, _⟩ := C71_cosine_searches (nats [4, 3]) [nats [1, 0], nats [3, 4], nats [0, 1], nats [7]] 2 (by simp [nats])
    (moderate_nats (by simp) (n := 4) (by simp) (by omega)) (by
      intro v hv hl
      simp only [List.mem_cons, List.not_mem_nil, or_false] at hv
      rcases hv with rfl | rfl | rfl | rfl
      · exact moderate_nats (by simp) (n := 1) (by simp) (by omega)
      · exact moderate_nats (by simp) (n := 3) (by simp) (by omega)
      · exact moderate_nats (by simp) (n := 1) (by simp) (by omega)
      · simp [nats] at hl)
  have h3 : knnCos (nats [4, 3]) [nats [1, 0], nats [3, 4], nats [0, 1], nats [7]] (2 : Nat) = .ok [1, 0] := by decide +kernel
  refine ⟨r, h1, h2.length.trans (by simp [nats]), ?_⟩
  rw [h1] at h3
  cases h3
  rfl

/-! ### C72 -/

/-- C72. The centroid vector is maintained incrementally (multiply by the count, add or subtract, divide), so rounding errors add up. For
every history of calls other than `MemTrim` on any number of centroids, with datapoints of finite components of magnitude at most `M`: if `N`
bounds the number of datapoints put into centroids (each `AddDataPoint` counts 1, each `DistributeDataPoints` its `n`) and
`8 N (N + 2) ≤ 2^53`, then the history does not panic, no component of any centroid vector is ever NaN or infinite, and every component is
within `8 N (N + 2) 2^-53 M / n` of the exact mean of the `n` datapoints held. Drains, expiry, `MoveVector` and lookups are not limited in
number. -/
theorem C72_drift {tk : Nat → Int} (hm : MonoClock tk) {M : ℝ} (hM : Bound M) {N : Nat} (hN : 8 * N * (N + 2) ≤ 2 ^ 53)
    (os : List (CentroidCall F64)) (p : Nat) (h : ∀ o ∈ os, o.notTrim ∧ o.nonneg ∧ o.goodSearch ∧ o.within M)
    (hputs : (os.map CentroidCall.puts).sum ≤ N) :
    ∃ w p', runCentroidCalls tk os ⟨[], [], []⟩ p = .ok (w, p') ∧
      ∀ c ∈ w.cs, (∀ x ∈ c.vec, Fin x) ∧ (c.dps ≠ [] → ∀ j,
        |comp j (vals c.vec) - compSum j (c.dps.map (fun d => vals d.vec)) / c.dps.length| ≤ 8 * N * (N + 2) * u * M / c.dps.length) := by
  have hcalls := near_calls hm hM hN os _ 0 p (worldInv_empty tk p) (by simp) (by omega) h
  obtain ⟨w, p', h1, h2⟩ := Go.wp_iff.1 hcalls
  refine ⟨w, p', h1, fun c hc => ⟨(h2 c hc).vec, fun hne j => ?_⟩⟩
  have hn := h2 c hc
  have hpos : (0 : ℝ) < c.dps.length := by exact_mod_cast List.length_pos_iff.2 hne
  have hu := u_pos
  have hM0 := hM.pos.le
  have he := hn.err j
  rw [le_div_iff₀ hpos, ← abs_of_pos hpos, ← abs_mul, abs_of_pos hpos]
  have e : (comp j (vals c.vec) - compSum j (c.dps.map (fun d => vals d.vec)) / c.dps.length) * c.dps.length =
      c.dps.length * comp j (vals c.vec) - compSum j (c.dps.map (fun d => vals d.vec)) := by field_simp
  rw [e]
  refine he.trans ?_
  have ha : (((0 + (os.map CentroidCall.puts).sum : Nat)) : ℝ) ≤ N := by exact_mod_cast (by omega : 0 + (os.map CentroidCall.puts).sum ≤ N)
  have h4 : (0 : ℝ) ≤ 4 * (N + 2) * u * M := by positivity
  refine (mul_le_mul_of_nonneg_right (show _ ≤ 2 * (N : ℝ) by linarith) h4).trans (le_of_eq (by ring))

/-- The error is real: a centroid given the datapoints (2^60) and (1), and drained of the first, holds only (1) but its vector is (0). -/
theorem C72_drift_real :
    ∃ w p', runCentroidCalls (fun _ => 0) [.create (nats [0]) 1 knnCos kfnCos, .add 0 ⟨nats [2 ^ 60], [1], 0, false⟩, .add 0 ⟨nats [1], [2], 0, false⟩,
        .drainUnordered 0 1] ⟨[], [], []⟩ 0 = .ok (w, p') ∧
      w.cs.map (fun c => (c.vec, c.dps.map (fun d => d.vec))) = [(nats [0], [nats [1]])] := by
  have h : (runCentroidCalls (fun _ => 0) [.create (nats [0]) 1 knnCos kfnCos, .add 0 ⟨nats [2 ^ 60], [1], 0, false⟩,
      .add 0 ⟨nats [1], [2], 0, false⟩, .drainUnordered 0 1] (⟨[], [], []⟩ : CentroidWorld F64) 0).map
      (fun r => r.1.cs.map (fun c => (c.vec, c.dps.map (fun d => d.vec)))) = .ok [(nats [0], [nats [1]])] := by decide +kernel
  exact exists_of_run h

/-- A history of 5 puts of components up to 9: at all times within `8 * 5 * 7 * 2^-53 * 9 / n` of the mean. -/
example : ∃ w p', runCentroidCalls (fun _ => 0) [.create (nats [0]) 1 knnCos kfnCos, .create (nats [8]) 1 knnCos kfnCos, .add 0 ⟨nats [1], [1], 0, false⟩,
      .add 0 ⟨nats [3], [2], 0, false⟩, .add 0 ⟨nats [9], [3], 0, false⟩, .distribute 0 2 [1], .moveVector 1, .drainUnordered 0 1] ⟨[], [], []⟩ 0 = .ok (w, p') ∧
    ∀ c ∈ w.cs, (∀ x ∈ c.vec, Fin x) ∧ (c.dps ≠ [] → ∀ j,
      |comp j (vals c.vec) - compSum j (c.dps.map (fun d => vals d.vec)) / c.dps.length| ≤
        8 * (5 : Nat) * ((5 : Nat) + 2) * u * (9 : Nat) / c.dps.length) := by
  have hg : ∀ asc, GoodSearch (fun t pl k => knnBrute t pl k asc (cosineSimilarity (F := F64))) := fun asc => searchOK_knnBrute asc _
  refine C72_drift (fun a b _ => le_refl _) (bound_nat (n := 9) (by omega) (by norm_num)) (N := 5) (by norm_num) _ 0 ?_ (by decide)
  have hv : ∀ n ≤ 9, ∀ x ∈ nats [n], Fin x ∧ |val x| ≤ (9 : Nat) := fun n hn => mem_nats (b := 9) (by simpa using hn) (by norm_num)
  intro o ho
  simp only [List.mem_cons, List.not_mem_nil, or_false] at ho
  rcases ho with rfl | rfl | rfl | rfl | rfl | rfl | rfl | rfl
  · exact ⟨trivial, by show (0 : Int) ≤ 1; omega, ⟨hg false, hg true⟩, fun x hx => (hv 0 (by omega) x hx).1⟩
  · exact ⟨trivial, by show (0 : Int) ≤ 1; omega, ⟨hg false, hg true⟩, fun x hx => (hv 8 (by omega) x hx).1⟩
  · exact ⟨trivial, trivial, trivial, hv 1 (by omega)⟩
  · exact ⟨trivial, trivial, trivial, hv 3 (by omega)⟩
  · exact ⟨trivial, trivial, trivial, hv 9 (by omega)⟩
  · exact ⟨trivial, by show (0 : Int) ≤ 2; omega, trivial, trivial⟩
  · exact ⟨trivial, trivial, trivial, trivial⟩
  · exact ⟨trivial, by show (0 : Int) ≤ 1; omega, trivial, trivial⟩

/-! ### The numbers that are not finite -/

/-- C05, where NaN comes from: the rules of IEEE 754 for zeros, infinities and NaN, which the model of float64 obeys. `x` is any
number that is not 0, `s` and `t` are signs (`true` for negative); a product or quotient is negative exactly if the signs differ. -/
theorem C05_special_values (s t : Bool) {k : Nat} (hk : k ≠ 0) :
    F64.mul (fin s 0) (inf t) = nan ∧ F64.mul (inf t) (fin s 0) = nan ∧ F64.mul (inf s) (fin t k) = inf (s != t) ∧ F64.mul (fin t k) (inf s) = inf (t != s) ∧
    F64.mul (inf s) (inf t) = inf (s != t) ∧ F64.add (inf s) (inf (!s)) = nan ∧ F64.add (inf s) (inf s) = inf s ∧ F64.add (inf s) (fin t k) = inf s ∧
    F64.add (fin t k) (inf s) = inf s ∧ F64.sub (inf s) (inf s) = nan ∧ F64.div (fin s 0) (fin t 0) = nan ∧ F64.div (inf s) (inf t) = nan ∧
    F64.div (fin s k) (fin t 0) = inf (s != t) ∧ F64.div (inf s) (fin t k) = inf (s != t) ∧ F64.div (fin s k) (inf t) = fin (s != t) 0 ∧
    F64.sqrt (inf true) = nan ∧ F64.sqrt (fin true k) = nan ∧ F64.sqrt (inf false) = inf false ∧ F64.sqrt (fin s 0) = fin s 0 ∧
    (∀ x, F64.add nan x = nan ∧ F64.add x nan = nan ∧ F64.sub nan x = nan ∧ F64.sub x nan = nan ∧ F64.mul nan x = nan ∧ F64.mul x nan = nan ∧ F64.div nan x = nan ∧ F64.div x nan = nan ∧
      F64.lt nan x = false ∧ F64.lt x nan = false ∧ F64.beq nan x = false ∧ F64.beq x nan = false) ∧
    F64.beq (fin s 0) (fin t 0) = true ∧ F64.lt (fin s 0) (fin t 0) = false ∧ (∀ y, F64.lt (fin s k) (inf y) = !y ∧ F64.lt (inf y) (fin s k) = y) := by
  refine ⟨by cases s <;> cases t <;> rfl, by cases s <;> cases t <;> rfl, by simp [F64.mul, hk], by simp [F64.mul, hk], rfl, by cases s <;> rfl, by simp [F64.add], rfl, rfl,
    by cases s <;> rfl, by cases s <;> cases t <;> rfl, rfl, by simp [F64.div, hk], rfl, rfl, rfl, by simp [F64.sqrt, hk], rfl, by simp [F64.sqrt], ?_, ?_, ?_, fun y => ⟨rfl, rfl⟩⟩
  · intro x
    refine ⟨rfl, ?_, rfl, ?_, rfl, ?_, rfl, ?_, rfl, ?_, rfl, ?_⟩ <;> cases x <;> rfl
  · cases s <;> cases t <;> rfl
  · cases s <;> cases t <;> rfl

/-- C05: a vector with an infinite component. Its norm is infinite, and its product with a zero is NaN. -/
example : cosineSimilarity [F64.inf false, F64.ofInt 1] [F64.ofInt 0, F64.ofInt 1] = some .nan := by decide +kernel

end Trypo
