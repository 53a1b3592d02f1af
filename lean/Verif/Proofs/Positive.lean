import Verif.Spec.Positive
import Verif.Proofs.Life

/-!
# Centroids of positive datapoints
-/

namespace Trypo
open Spec F64

namespace Positive

attribute [local irreducible] UNIT TOP

theorem _root_.Trypo.Spec.Range.pos {lo hi : ℝ} (h : Range lo hi) : 0 < lo := lt_of_lt_of_le (by positivity) h.low

theorem _root_.Trypo.Spec.Range.bound {lo hi : ℝ} (h : Range lo hi) : Bound hi := by
  constructor
  · refine le_trans ?_ (h.low.trans h.le)
    exact one_div_le_one_div_of_le (by positivity) (pow_le_pow_right₀ (by norm_num) (by norm_num))
  · exact h.high.trans (pow_le_pow_right₀ (by norm_num) (by norm_num))

theorem count_le {lo hi : ℝ} (h : Range lo hi) {N : Nat} (hN : 16 * (N : ℝ) * (N + 2) * hi ≤ 2 ^ 53 * lo) : 8 * N * (N + 2) ≤ 2 ^ 53 := by
  have hp := h.pos
  have h1 : 16 * (N : ℝ) * (N + 2) * lo ≤ 2 ^ 53 * lo := le_trans (mul_le_mul_of_nonneg_left h.le (by positivity)) hN
  have h2 : 16 * (N : ℝ) * (N + 2) ≤ 2 ^ 53 := le_of_mul_le_mul_right h1 hp
  have h3 : 16 * N * (N + 2) ≤ 2 ^ 53 := by exact_mod_cast h2
  have h4 : 8 * N * (N + 2) ≤ 16 * N * (N + 2) := Nat.mul_le_mul_right _ (by omega)
  omega

/-- The components of the vector of a centroid that holds something, near the mean of numbers in the range, are nearly in the range. -/
theorem near_ranged {lo hi : ℝ} (h : Range lo hi) {N a : Nat} (hN : 16 * (N : ℝ) * (N + 2) * hi ≤ 2 ^ 53 * lo) (ha : a ≤ N) {c : Centroid F64}
    (hc : Near hi N a c) (hd : ∀ d ∈ c.dps, Ranged lo hi d.vec) (hne : c.dps ≠ []) : Ranged (lo / 2) (2 * hi) c.vec := by
  have hlo := h.pos
  have hhi : 0 < hi := lt_of_lt_of_le hlo h.le
  have hu := u_pos
  intro x hx
  refine ⟨hc.vec x hx, ?_⟩
  obtain ⟨j, hj, rfl⟩ := List.mem_iff_getElem.1 hx
  have he := hc.err j
  have hv : comp j (vals c.vec) = val c.vec[j] := by
    rw [← val_getD, List.getD_eq_getElem?_getD, List.getElem?_eq_getElem hj]; rfl
  rw [hv] at he
  have hn1 : 1 ≤ c.dps.length := List.length_pos_iff.2 hne
  have hnR : (1 : ℝ) ≤ c.dps.length := by exact_mod_cast hn1
  have haR : (a : ℝ) ≤ N := by exact_mod_cast ha
  have hN0 : (0 : ℝ) ≤ N := Nat.cast_nonneg N
  have hsmall : (2 * (a : ℝ) - c.dps.length) * (4 * (N + 2) * u * hi) ≤ lo / 2 := by
    have h1 : (2 * (a : ℝ) - c.dps.length) * (4 * (N + 2) * u * hi) ≤ (2 * N) * (4 * (N + 2) * u * hi) :=
      mul_le_mul_of_nonneg_right (by linarith) (by positivity)
    have h2 : (2 * (N : ℝ)) * (4 * (N + 2) * u * hi) = (16 * N * (N + 2) * hi) * u / 2 := by ring
    have h3 : (16 * (N : ℝ) * (N + 2) * hi) * u ≤ (2 ^ 53 * lo) * u := mul_le_mul_of_nonneg_right hN hu.le
    have h4 : (2 : ℝ) ^ 53 * lo * u = lo := by unfold u; field_simp
    rw [h2] at h1
    linarith
  obtain ⟨e1, e2⟩ := abs_le.1 (he.trans hsmall)
  have hsum : ∀ l : List (DataPoint F64), (∀ d ∈ l, Ranged lo hi d.vec ∧ j < d.vec.length) →
      l.length * lo ≤ compSum j (l.map (fun d => vals d.vec)) ∧ compSum j (l.map (fun d => vals d.vec)) ≤ l.length * hi := by
    intro l
    induction l with
    | nil => intro _; simp [compSum]
    | cons d l ih =>
      intro hl
      obtain ⟨i1, i2⟩ := ih (fun d hd => hl d (by simp [hd]))
      obtain ⟨g1, g2⟩ := hl d (by simp)
      have hx := g1 _ (mem_of_getD g2)
      rw [val_getD] at hx
      rw [List.map_cons, compSum_cons, List.length_cons]
      push_cast
      constructor <;> linarith [hx.2.1, hx.2.2]
  obtain ⟨s1, s2⟩ := hsum c.dps (fun d hdm => ⟨hd d hdm, by rw [hc.dim d hdm]; exact hj⟩)
  have hn0 : (0 : ℝ) < c.dps.length := by linarith
  constructor
  · refine le_of_mul_le_mul_left ?_ hn0
    have : (c.dps.length : ℝ) * (lo / 2) = c.dps.length * lo - c.dps.length * (lo / 2) := by ring
    have h5 : 1 * (lo / 2) ≤ c.dps.length * (lo / 2) := mul_le_mul_of_nonneg_right hnR (by linarith)
    linarith
  · refine le_of_mul_le_mul_left ?_ hn0
    have h5 : 1 * hi ≤ c.dps.length * hi := mul_le_mul_of_nonneg_right hnR hhi.le
    have := h.le
    linarith

/-- A centroid of datapoints in the range, after at most `p` datapoints were put into it. -/
structure Sound (knn kfn : Search F64) (lo hi : ℝ) (N p : Nat) (c : Centroid F64) : Prop where
  searches : c.knn = knn ∧ c.kfn = kfn
  dim : c.DimOK
  data : ∀ d ∈ c.dps, Ranged lo hi d.vec
  near : p ≤ N → Near hi N p c
  vec : p ≤ N → Ranged (lo / 2) (2 * hi) c.vec

theorem _root_.Trypo.Spec.Ranged.abs {lo hi : ℝ} {v : List F64} (hv : Ranged lo hi v) (h : Range lo hi) : ∀ x ∈ v, Fin x ∧ |val x| ≤ hi := by
  intro x hx
  obtain ⟨h1, h2, h3⟩ := hv x hx
  exact ⟨h1, by rw [abs_of_nonneg (h.pos.le.trans h2)]; exact h3⟩

theorem _root_.Trypo.Spec.Ranged.widen {lo hi : ℝ} {v : List F64} (hv : Ranged lo hi v) (h : Range lo hi) : Ranged (lo / 2) (2 * hi) v := by
  intro x hx
  obtain ⟨h1, h2, h3⟩ := hv x hx
  have := h.pos
  have := h.le
  exact ⟨h1, by linarith, by linarith⟩

theorem near_empty {M : ℝ} (hM : 0 ≤ M) {N a : Nat} {v : List F64} (hv : ∀ x ∈ v, Fin x) (knn kfn : Search F64) : Near M N a ⟨v, [], knn, kfn⟩ := by
  refine ⟨by intro d hd; simp at hd, by intro d hd; simp at hd, hv, by simp, fun j => ?_⟩
  have hu := u_pos
  simp only [List.length_nil, List.map_nil, Nat.cast_zero, zero_mul, sub_zero]
  simp only [Spec.compSum, List.map_nil, List.sum_nil, sub_zero, abs_zero]
  positivity

theorem life {lo hi : ℝ} (h : Range lo hi) {N : Nat} (hN : 16 * (N : ℝ) * (N + 2) * hi ≤ 2 ^ 53 * lo) (knn kfn : Search F64) :
    Life knn kfn (fun d => Ranged lo hi d.vec) (Sound knn kfn lo hi N) where
  mono := fun {p q c} hc hpq => ⟨hc.searches, hc.dim, hc.data, fun hq => (hc.near (hpq.trans hq)).mono h.bound.pos.le hpq, fun hq => hc.vec (hpq.trans hq)⟩
  first := fun {d} p hd => ⟨⟨rfl, rfl⟩, by intro x hx; simp at hx, by intro x hx; simp at hx,
    fun _ => near_empty h.bound.pos.le (fun x hx => (hd x hx).1) _ _, fun _ => hd.widen h⟩
  fresh := fun {p c} hc => ⟨⟨rfl, rfl⟩, by intro x hx; simp at hx, by intro x hx; simp at hx,
    fun hp => near_empty h.bound.pos.le (fun x hx => (hc.vec hp x hx).1) _ _, fun hp => hc.vec hp⟩
  searches := fun hc => hc.searches
  dim := fun hc => hc.dim
  data := fun hc => hc.data
  rm := fun {p c i d} hc hi' => by
    have hmem := List.mem_of_getElem? hi'
    have hl : (c.rmP i d).vec.length = c.vec.length := Centroid.rmP_vec_length (hc.dim d hmem)
    have hdata : ∀ e ∈ (c.rmP i d).dps, Ranged lo hi e.vec := fun e he => hc.data e ((List.eraseIdx_sublist _ _).subset he)
    refine ⟨hc.searches, fun e he => by rw [hl]; exact hc.dim e ((List.eraseIdx_sublist _ _).subset he), hdata,
      fun hp => (hc.near hp).rm h.bound hp (count_le h hN) hi', fun hp => ?_⟩
    by_cases hn : 1 < c.dps.length
    · refine near_ranged h hN hp ((hc.near hp).rm h.bound hp (count_le h hN) hi') hdata ?_
      have hlen := (Centroid.perm_eraseIdx hi').length_eq
      simp only [List.length_cons] at hlen
      intro h0
      have h0 : c.dps.eraseIdx i = [] := h0
      rw [h0, List.length_nil] at hlen
      omega
    · have : (c.rmP i d).vec = c.vec := by simp [Centroid.rmP, hn]
      rw [this]; exact hc.vec hp
  add := fun {p c d} hc hd hl => by
    have hdata : ∀ e ∈ (c.addRaw d).dps, Ranged lo hi e.vec := by
      intro e he
      rcases List.mem_append.1 he with he | he
      · exact hc.data e he
      · rw [List.mem_singleton.1 he]; exact hd
    have hnear : p + 1 ≤ N → Near hi N (p + 1) (c.addRaw d) := fun hp =>
      (hc.near (by omega)).add h.bound (by omega) (count_le h hN) hl (hd.abs h)
    exact ⟨hc.searches, Centroid.addRaw_dimOK hl hc.dim, hdata, hnear, fun hp => near_ranged h hN hp (hnear hp) hdata (by simp [Centroid.addRaw])⟩
  move := fun {p c} hc ht => by
    have hne : c.dps ≠ [] := by
      intro h0
      rw [h0] at ht
      simp [vecMean] at ht
    have hlv : (vecMean (c.dps.map (fun d => d.vec))).1.length = c.vec.length := by
      obtain ⟨v, hv, _⟩ := (C01_vecMean_flag _).1.1 ht
      rw [(C01_vecMean_flag _).2 v hv]
      obtain ⟨d, hd1, rfl⟩ := List.mem_map.1 (List.mem_of_mem_head? hv)
      exact hc.dim d hd1
    exact ⟨hc.searches, fun d hd => (hc.dim d hd).trans hlv.symm, hc.data, fun hp => (hc.near hp).move h.bound hp (count_le h hN) ht,
      fun hp => near_ranged h hN hp ((hc.near hp).move h.bound hp (count_le h hN) ht) hc.data hne⟩

theorem moderate {lo hi : ℝ} (h : Range lo hi) {v : List F64} (hv : Ranged (lo / 2) (2 * hi) v) (hne : v ≠ []) : Moderate v := by
  have hlo := h.pos
  have h499 : 2 * hi ≤ 2 ^ 500 := by
    have := h.high
    rw [show (2 : ℝ) ^ 500 = 2 * 2 ^ 499 by rw [pow_succ]; ring]
    linarith
  have h479 : 1 / 2 ^ 480 ≤ lo / 2 := by
    have := h.low
    rw [show (1 : ℝ) / 2 ^ 480 = 1 / 2 ^ 479 / 2 by rw [pow_succ]; field_simp]
    linarith
  have habs : ∀ x ∈ v, |val x| = val x := fun x hx => abs_of_nonneg (le_trans (by linarith) (hv x hx).2.1)
  refine ⟨fun x hx => ⟨(hv x hx).1, by rw [habs x hx]; exact (hv x hx).2.2.trans h499⟩, ?_⟩
  obtain ⟨x, hx⟩ := List.exists_mem_of_ne_nil v hne
  exact ⟨x, hx, by rw [habs x hx]; exact h479.trans (hv x hx).2.1⟩

/-- A centroid of datapoints of bounded components, after at most `p` datapoints were put into it. -/
structure Close (knn kfn : Search F64) (M : ℝ) (N p : Nat) (c : Centroid F64) : Prop where
  searches : c.knn = knn ∧ c.kfn = kfn
  dim : c.DimOK
  data : ∀ d ∈ c.dps, ∀ x ∈ d.vec, Fin x ∧ |val x| ≤ M
  near : p ≤ N → Near M N p c

theorem life_close {M : ℝ} (h : Bound M) {N : Nat} (hN : 8 * N * (N + 2) ≤ 2 ^ 53) (knn kfn : Search F64) :
    Life knn kfn (fun d => ∀ x ∈ d.vec, Fin x ∧ |val x| ≤ M) (Close knn kfn M N) where
  mono := fun {p q c} hc hpq => ⟨hc.searches, hc.dim, hc.data, fun hq => (hc.near (hpq.trans hq)).mono h.pos.le hpq⟩
  first := fun {d} p hd => ⟨⟨rfl, rfl⟩, by intro x hx; simp at hx, by intro x hx; simp at hx,
    fun _ => near_empty h.pos.le (fun x hx => (hd x hx).1) _ _⟩
  fresh := fun {p c} hc => ⟨⟨rfl, rfl⟩, by intro x hx; simp at hx, by intro x hx; simp at hx,
    fun hp => near_empty h.pos.le (hc.near hp).vec _ _⟩
  searches := fun hc => hc.searches
  dim := fun hc => hc.dim
  data := fun hc => hc.data
  rm := fun {p c i d} hc hi' => by
    have hmem := List.mem_of_getElem? hi'
    have hl : (c.rmP i d).vec.length = c.vec.length := Centroid.rmP_vec_length (hc.dim d hmem)
    exact ⟨hc.searches, fun e he => by rw [hl]; exact hc.dim e ((List.eraseIdx_sublist _ _).subset he),
      fun e he => hc.data e ((List.eraseIdx_sublist _ _).subset he), fun hp => (hc.near hp).rm h hp hN hi'⟩
  add := fun {p c d} hc hd hl => by
    refine ⟨hc.searches, Centroid.addRaw_dimOK hl hc.dim, fun e he => ?_, fun hp => (hc.near (by omega)).add h (by omega) hN hl hd⟩
    rcases List.mem_append.1 he with he | he
    · exact hc.data e he
    · rw [List.mem_singleton.1 he]; exact hd
  move := fun {p c} hc ht => by
    have hlv : (vecMean (c.dps.map (fun d => d.vec))).1.length = c.vec.length := by
      obtain ⟨v, hv, _⟩ := (C01_vecMean_flag _).1.1 ht
      rw [(C01_vecMean_flag _).2 v hv]
      obtain ⟨d, hd1, rfl⟩ := List.mem_map.1 (List.mem_of_mem_head? hv)
      exact hc.dim d hd1
    exact ⟨hc.searches, fun d hd => (hc.dim d hd).trans hlv.symm, hc.data, fun hp => (hc.near hp).move h hp hN ht⟩

end Positive
end Trypo
