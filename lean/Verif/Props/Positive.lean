import Verif.Proofs.Positive
import Verif.Props.Refused

/-! C123: managers of datapoints with positive components. C124: centroid vectors of managers, in float64. -/

namespace Trypo
open GoFloat Spec EventLoop Service F64

attribute [local irreducible] UNIT TOP

section
variable {tk : Nat → Int} {lo hi : ℝ} {N : Nat}

/-- C123, centroids: as long as `MemTrim` is not called, and the clock is read at most `N` times, all components of all centroid vectors are
about as large as those of the datapoints. This holds for centroids that hold nothing, too. -/
theorem C123_vectors_partial (hm : MonoClock tk) (hr : Range lo hi) (hN : 16 * (N : ℝ) * (N + 2) * hi ≤ 2 ^ 53 * lo) (initVec : List F64)
    {initCap : Int} (threshold : Int) {knn kfn : Search F64} (hk : GoodSearch knn) (hf : GoodSearch kfn) (os : List (ManagerCall F64))
    (ho : ∀ o ∈ os, o.notTrim ∧ o.ranged lo hi) {w : ManagerWorld F64} {p : Nat}
    (hrun : runManager tk initVec initCap threshold knn kfn os 0 = .ok (w, p)) (hp : p ≤ N) :
    ∀ c ∈ w.cm.centroids, Ranged (lo / 2) (2 * hi) c.vec := by
  have h := (Positive.life hr hN knn kfn).run hk hf hm initVec initCap threshold os 0 (fun o h => ⟨by
    rintro rfl
    exact (ho _ h).1, by
    rintro d rfl
    exact (ho _ h).2⟩) w p hrun
  exact fun c hc => (h.2.all c hc).vec hp

/-- C123: then every live datapoint of the right dimension, with components in the same range, is accepted and stored. -/
theorem C123_accepts_partial (hm : MonoClock tk) (hr : Range lo hi) (hN : 16 * (N : ℝ) * (N + 2) * hi ≤ 2 ^ 53 * lo) (initVec : List F64)
    {initCap : Int} (hcap : 0 ≤ initCap) (threshold : Int) {kfn : Search F64} (hf : GoodSearch kfn) (os : List (ManagerCall F64))
    (ho : ∀ o ∈ os, o.valid ∧ o.notTrim ∧ o.ranged lo hi) :
    ∃ w p, runManager tk initVec initCap threshold knnCos kfn os 0 = .ok (w, p) ∧ (p ≤ N →
      ∀ d : DataPoint F64, Ranged lo hi d.vec → d.vec ≠ [] → d.vec.length ≤ 2 ^ 20 → (w.cm.centroids = [] ∨ d.vec.length = w.cm.vec.length) →
        ¬ Dead (tk (p + 1)) d →
        ∃ cm' p', w.cm.addDataPoint tk d p = .ok ((true, cm'), p') ∧ Conserved (tk p') (d :: stored w.cm) (stored cm') []) := by
  have hk := (prefabs_goodSearch (F := F64)).1
  obtain ⟨w, p, hrun, hok⟩ := C19_manager_consistent hm initVec hcap threshold hk hf os (fun o h => (ho o h).1) 0
  refine ⟨w, p, hrun, fun hp d hd hne hlen hdim hl => ?_⟩
  have hvec := C123_vectors_partial hm hr hN initVec threshold hk hf os (fun o h => (ho o h).2) hrun hp
  have hknn : w.cm.knn = knnCos := ((Positive.life hr hN knnCos kfn).run hk hf hm initVec initCap threshold os 0 (fun o h => ⟨by
    rintro rfl
    exact (ho _ h).2.1, by
    rintro d rfl
    exact (ho _ h).2.2⟩) w p hrun).2.searches.1
  have hacc : ∃ cm' p', w.cm.addDataPoint tk d p = .ok ((true, cm'), p') := by
    by_cases h0 : w.cm.centroids = []
    · obtain ⟨b, cm', p', h1, _, _, _, h2⟩ := C20_addDataPoint hm hok d p
      rw [h2 (fun h => hl (h.mono hm (Nat.le_succ p))) h0] at h1
      exact ⟨cm', p', h1⟩
    · have hd2 : d.vec.length = w.cm.vec.length := hdim.resolve_left h0
      obtain ⟨⟨r, h1, h2⟩, _⟩ := C71_cosine_searches d.vec w.cm.centroidVecs 1 hlen (Positive.moderate hr (hd.widen hr) hne) (by
        intro v hv hvl
        obtain ⟨c, hc, rfl⟩ := List.mem_map.1 hv
        refine Positive.moderate hr (hvec c hc) ?_
        intro h0
        rw [h0] at hvl
        exact hne (List.length_eq_zero_iff.1 hvl.symm))
      have hall : w.cm.centroidVecs.countP (fun v => v.length == d.vec.length) = w.cm.centroids.length := by
        rw [List.countP_eq_length.2]
        · simp [Manager.centroidVecs]
        · intro v hv
          obtain ⟨c, hc, rfl⟩ := List.mem_map.1 hv
          simp [(hok.dim c hc).1, hd2]
      have hpos : 0 < w.cm.centroids.length := List.length_pos_iff.2 h0
      have hlen1 := h2.length
      rw [hall] at hlen1
      cases r with
      | nil => simp only [List.length_nil] at hlen1; omega
      | cons j js => exact C20_addDataPoint_accepts hm hok d p hl hd2 (by rw [hknn]; exact h1)
  obtain ⟨cm', p', h1⟩ := hacc
  obtain ⟨b, cm'', p'', h2, h3, _⟩ := C20_addDataPoint hm hok d p
  rw [h1] at h2
  cases h2
  exact ⟨cm', p', h1, h3 rfl⟩

end

namespace PositiveExample
open ServerExample JobsExample ServiceExample

/-- A datapoint of two small natural numbers. -/
def pt (x y : Nat) : DataPoint F64 := ⟨FloatExample.nats [x, y], [], 0, false⟩

/-- What is left, and what was taken in. -/
def obs (w : ManagerWorld F64) : List (DataPoint F64) × List (DataPoint F64) := (w.stored, w.accepted)

end PositiveExample
open PositiveExample

/-- C123 is false: `(2, 2)` and `(1, 1)` are added to a manager, `MemTrim` is called, and a draining query takes `(2, 2)` out. From then on
the vector of the only centroid is zero, which has no angle to anything, and `(1, 1)` is refused. -/
theorem C123_refuted : ∃ w p, runManager (fun _ => 0) (FloatExample.nats [1, 1]) 1 10 knnCos kfnCos
      [.add (pt 2 2), .add (pt 1 1), .memTrim, .knnLookup (FloatExample.nats [1, 2]) 1 true, .add (pt 1 1)] 0 = .ok (w, p) ∧
    obs w = ([pt 1 1], [pt 1 1, pt 2 2]) :=
  exists_of_run (by decide +kernel)

/-- C124: in a manager, too, no component of a centroid vector is ever NaN or infinite, and each is near the exact mean of the datapoints held.
`N` bounds the number of times the clock is read, which is at least the number of times that a datapoint is put into a centroid. -/
theorem C124_manager_drift {tk : Nat → Int} (hm : MonoClock tk) {M : ℝ} (hM : Bound M) {N : Nat} (hN : 8 * N * (N + 2) ≤ 2 ^ 53) (initVec : List F64)
    {initCap : Int} (hcap : 0 ≤ initCap) (threshold : Int) {knn kfn : Search F64} (hk : GoodSearch knn) (hf : GoodSearch kfn)
    (os : List (ManagerCall F64)) (ho : ∀ o ∈ os, o.valid ∧ o.notTrim ∧ o.within M) :
    ∃ w p, runManager tk initVec initCap threshold knn kfn os 0 = .ok (w, p) ∧ (p ≤ N →
      ∀ c ∈ w.cm.centroids, (∀ x ∈ c.vec, Fin x) ∧ (c.dps ≠ [] → ∀ j,
        |comp j (vals c.vec) - compSum j (c.dps.map (fun d => vals d.vec)) / c.dps.length| ≤ 8 * N * (N + 2) * u * M / c.dps.length)) := by
  obtain ⟨w, p, hrun, _⟩ := C19_manager_consistent hm initVec hcap threshold hk hf os (fun o h => (ho o h).1) 0
  have h := (Positive.life_close hM hN knn kfn).run hk hf hm initVec initCap threshold os 0 (fun o h => ⟨by
    rintro rfl
    exact (ho _ h).2.1, by
    rintro d rfl
    exact (ho _ h).2.2⟩) w p hrun
  refine ⟨w, p, hrun, fun hp c hc => ?_⟩
  have hn := (h.2.all c hc).near hp
  refine ⟨hn.vec, fun hne j => ?_⟩
  have hpos : (0 : ℝ) < c.dps.length := by exact_mod_cast List.length_pos_iff.2 hne
  have hu := u_pos
  have hM0 := hM.pos.le
  have he := hn.err j
  rw [le_div_iff₀ hpos, ← abs_of_pos hpos, ← abs_mul, abs_of_pos hpos]
  have e : (comp j (vals c.vec) - compSum j (c.dps.map (fun d => vals d.vec)) / c.dps.length) * c.dps.length =
      c.dps.length * comp j (vals c.vec) - compSum j (c.dps.map (fun d => vals d.vec)) := by
    field_simp
  rw [e]
  refine he.trans ?_
  have hpN : (p : ℝ) ≤ N := by exact_mod_cast hp
  have h4 : (0 : ℝ) ≤ 4 * (N + 2) * u * M := by positivity
  calc (2 * (p : ℝ) - c.dps.length) * (4 * (N + 2) * u * M) ≤ (2 * N) * (4 * (N + 2) * u * M) :=
        mul_le_mul_of_nonneg_right (by linarith) h4
    _ = 8 * N * (N + 2) * u * M := by ring

namespace PositiveExample
open ServerExample JobsExample ServiceExample

/-- Two puts, the `MemTrim` that the event loop does, a draining query, and a put. -/
def script : List (Job F64) := [.put [1] (some ⟨7, false, ⟨(pt 2 2).vec, [], 0, false⟩⟩), .put [1] (some ⟨7, false, ⟨(pt 1 1).vec, [], 0, false⟩⟩),
  .rpc (.memTrim 1 7), .query [1] (some ⟨7, false, (pt 1 2).vec, 1, true⟩), .put [1] (some ⟨7, false, ⟨(pt 1 1).vec, [], 0, false⟩⟩)]

/-- What node 1 stores, and the HTTP status of the last answer. -/
def obsS (r : List (Prog F64 (Outcome F64)) × World F64 × Nat) : List (List F64) × Option Nat :=
  ((storedAt r.2.1 [1] 7).map (fun d => d.vec), match r.1.getLast? with
    | some (.ret (.status n)) => some n
    | _ => none)

/-- C123: the same through the HTTP interface. The last put is answered with 200; what it brought is not stored. -/
example : ∃ r, Pool.run (List.replicate 30 0 ++ List.replicate 30 1 ++ List.replicate 30 2 ++ List.replicate 30 3 ++ List.replicate 30 4)
      (script.map (fun j => j.prog env fac)) start 0 = .ok r ∧ obsS r = ([(pt 1 1).vec], some 200) :=
  exists_of_pool (by decide +kernel)

theorem ranged_nats {l : List Nat} {a b : Nat} (h : ∀ n ∈ l, a ≤ n ∧ n ≤ b) (hb : b ≤ 2 ^ 53) : Ranged a b (FloatExample.nats l) := by
  intro x hx
  obtain ⟨n, hn, rfl⟩ := List.mem_map.1 hx
  obtain ⟨f, v⟩ := FloatExample.val_nat ((h n hn).2.trans hb)
  rw [v]
  exact ⟨f, by exact_mod_cast (h n hn).1, by exact_mod_cast (h n hn).2⟩

theorem range_nat {a b : Nat} (h1 : 1 ≤ a) (h2 : a ≤ b) (hb : b ≤ 2 ^ 53) : Range (a : ℝ) b := by
  have h1 : (1 : ℝ) ≤ a := by exact_mod_cast h1
  have hb : (b : ℝ) ≤ 2 ^ 53 := by exact_mod_cast hb
  refine ⟨le_trans ?_ h1, by exact_mod_cast h2, hb.trans (pow_le_pow_right₀ (by norm_num) (by norm_num))⟩
  rw [div_le_one (by positivity)]
  exact one_le_pow₀ (by norm_num)

/-- A history of additions, a split, lookups, drains and moves. -/
def hist : List (ManagerCall F64) := [.add (pt 1 2), .add (pt 9 1), .add (pt 3 3), .splitCentroids (fun _ => true), .drainUnordered 1 id,
  .knnLookup (FloatExample.nats [1, 1]) 1 true, .moveVector, .distributeInternal 1 id, .expire]

theorem hist_ok : ∀ o ∈ hist, o.valid ∧ o.notTrim ∧ o.ranged (1 : Nat) (9 : Nat) := by
  intro o ho
  simp only [hist, List.mem_cons, List.not_mem_nil, or_false] at ho
  rcases ho with rfl | rfl | rfl | rfl | rfl | rfl | rfl | rfl | rfl
  · exact ⟨trivial, trivial, ranged_nats (by simp) (by norm_num)⟩
  · exact ⟨trivial, trivial, ranged_nats (by simp) (by norm_num)⟩
  · exact ⟨trivial, trivial, ranged_nats (by simp) (by norm_num)⟩
  · exact ⟨trivial, trivial, trivial⟩
  · exact ⟨⟨by decide, fun l => List.Perm.refl l⟩, trivial, trivial⟩
  · exact ⟨by show (0 : Int) ≤ 1; omega, trivial, trivial⟩
  · exact ⟨trivial, trivial, trivial⟩
  · exact ⟨⟨by decide, fun l => List.Perm.refl l⟩, trivial, trivial⟩
  · exact ⟨trivial, trivial, trivial⟩

/-- C123: after it, `(5, 5)` is accepted and stored. It was about 20 readings of the clock; a million would be allowed. -/
example : ∃ w p, runManager (fun _ => 0) (FloatExample.nats [1, 1]) 1 10 knnCos kfnCos hist 0 = .ok (w, p) ∧ p ≤ 40 ∧
    ∃ cm' p', w.cm.addDataPoint (fun _ => 0) (pt 5 5) p = .ok ((true, cm'), p') ∧ Conserved 0 (pt 5 5 :: stored w.cm) (stored cm') [] := by
  obtain ⟨w, p, h1, h2⟩ := C123_accepts_partial (tk := fun _ => 0) (N := 1000000) (fun _ _ _ => Int.le_refl _)
    (range_nat (a := 1) (b := 9) (by omega) (by omega) (by norm_num)) (by norm_num) (FloatExample.nats [1, 1]) (initCap := 1) (by omega) 10
    (prefabs_goodSearch (F := F64)).2.1 hist hist_ok
  have hq : (runManager (fun _ => 0) (FloatExample.nats [1, 1]) 1 10 knnCos kfnCos hist 0).map (fun r => decide (r.2 ≤ 40 ∧ r.1.cm.vec.length = 2)) =
      .ok true := by decide +kernel
  rw [h1] at hq
  have hq' := of_decide_eq_true (Except.ok.inj hq)
  refine ⟨w, p, h1, hq'.1, ?_⟩
  exact h2 (by omega) (pt 5 5) (ranged_nats (by simp) (by norm_num)) (by simp [pt, FloatExample.nats]) (by simp [pt, FloatExample.nats])
    (.inr (by rw [hq'.2]; simp [pt, FloatExample.nats])) (by simp [Dead, pt])

/-- C124: after it, all centroid vectors are within `8 * 40 * 42 * 2^-53 * 9 / n` of the mean. -/
example : ∃ w p, runManager (fun _ => 0) (FloatExample.nats [1, 1]) 1 10 knnCos kfnCos hist 0 = .ok (w, p) ∧
    ∀ c ∈ w.cm.centroids, (∀ x ∈ c.vec, Fin x) ∧ (c.dps ≠ [] → ∀ j,
      |comp j (vals c.vec) - compSum j (c.dps.map (fun d => vals d.vec)) / c.dps.length| ≤
        8 * (40 : Nat) * ((40 : Nat) + 2) * u * (9 : Nat) / c.dps.length) := by
  obtain ⟨w, p, h1, h2⟩ := C124_manager_drift (tk := fun _ => 0) (N := 40) (fun _ _ _ => Int.le_refl _)
    (FloatExample.bound_nat (n := 9) (by omega) (by norm_num)) (by norm_num) (FloatExample.nats [1, 1]) (initCap := 1) (by omega) 10
    (prefabs_goodSearch (F := F64)).1 (prefabs_goodSearch (F := F64)).2.1 hist (fun o ho => ⟨(hist_ok o ho).1, (hist_ok o ho).2.1, by
      have := (hist_ok o ho).2.2
      cases o with
      | add d => exact Ranged.abs this (range_nat (a := 1) (b := 9) (by omega) (by omega) (by norm_num))
      | _ => trivial⟩)
  have hq : (runManager (fun _ => 0) (FloatExample.nats [1, 1]) 1 10 knnCos kfnCos hist 0).map (fun r => decide (r.2 ≤ 40)) = .ok true := by
    decide +kernel
  rw [h1] at hq
  exact ⟨w, p, h1, h2 (of_decide_eq_true (Except.ok.inj hq))⟩

end PositiveExample
end Trypo
