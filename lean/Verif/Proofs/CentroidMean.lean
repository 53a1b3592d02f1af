import Verif.Proofs.Centroid3
import Verif.Proofs.MathUtils

/-!
# The centroid vector as a mean, in exact arithmetic
-/

namespace Trypo
open GoFloat Spec

theorem comp_div (j : Nat) (v : List ℝ) (s : ℝ) : comp j (vecDivScalar v s) = comp j v / s := by
  unfold comp vecDivScalar
  rw [List.getD_eq_getElem?_getD, List.getD_eq_getElem?_getD, List.getElem?_map]
  cases v[j]? <;> simp

theorem comp_mul (j : Nat) (v : List ℝ) (s : ℝ) : comp j (vecMulScalar v s) = comp j v * s := by
  unfold comp vecMulScalar
  rw [List.getD_eq_getElem?_getD, List.getD_eq_getElem?_getD, List.getElem?_map]
  cases v[j]? <;> simp

theorem comp_zip (j : Nat) (f : ℝ → ℝ → ℝ) (hf : f 0 0 = 0) (v w : List ℝ) (h : v.length = w.length) :
    comp j (List.zipWith f v w) = f (comp j v) (comp j w) := by
  unfold comp
  simp only [List.getD_eq_getElem?_getD, List.getElem?_zipWith]
  by_cases hj : j < v.length
  · rw [List.getElem?_eq_getElem hj, List.getElem?_eq_getElem (h ▸ hj)]; rfl
  · rw [List.getElem?_eq_none (by omega), List.getElem?_eq_none (by omega)]; simp [hf]

theorem comp_vecAdd (j : Nat) (v w : List ℝ) (h : v.length = w.length) :
    comp j (vecAdd v w).1 = comp j v + comp j w := by
  unfold vecAdd
  rw [if_neg (by simpa using h)]
  simpa using comp_zip j add (by simp) v w h

theorem comp_vecSub (j : Nat) (v w : List ℝ) (h : v.length = w.length) :
    comp j (vecSub v w).1 = comp j v - comp j w := by
  unfold vecSub
  rw [if_neg (by simpa using h)]
  simpa using comp_zip j sub (by simp) v w h

theorem compSum_perm {j : Nat} {a b : List (List ℝ)} (h : a.Perm b) : compSum j a = compSum j b :=
  (h.map _).sum_eq

theorem compSum_append (j : Nat) (a b : List (List ℝ)) : compSum j (a ++ b) = compSum j a + compSum j b := by
  simp [compSum]

theorem compSum_cons (j : Nat) (a : List ℝ) (b : List (List ℝ)) : compSum j (a :: b) = comp j a + compSum j b := by
  simp [compSum]

namespace Centroid

/-- The centroid vector is the mean of the vectors held. -/
def MeanInv (c : Centroid ℝ) : Prop := IsMean c.vec (c.dps.map (fun d => d.vec))

theorem MeanInv.addRaw {c : Centroid ℝ} (h : c.MeanInv) {d : DataPoint ℝ} (hd : d.vec.length = c.vec.length) :
    (c.addRaw d).MeanInv := by
  intro j
  have hj := h j
  unfold Centroid.addRaw
  simp only [comp_div, List.map_append, List.map_cons, List.map_nil, List.length_append, List.length_map,
    List.length_cons, List.length_nil, compSum_append]
  rw [comp_vecAdd _ _ _ (by simp [vecMulScalar, hd]), comp_mul]
  simp only [radd, rofNat, List.length_map] at *
  rw [← hj]
  have : (c.dps.length : ℝ) + 1 ≠ 0 := by positivity
  push_cast
  field_simp
  simp [compSum]

theorem MeanInv.rmP {c : Centroid ℝ} (h : c.MeanInv) {i : Nat} {d : DataPoint ℝ} (hi : c.dps[i]? = some d)
    (hd : d.vec.length = c.vec.length) : (c.rmP i d).MeanInv := by
  intro j
  have hj := h j
  have hp := perm_eraseIdx hi
  have hl := hp.length_eq
  have hs := compSum_perm (j := j) (hp.map (fun d => d.vec))
  rw [List.map_cons, compSum_cons] at hs
  unfold Centroid.rmP
  simp only [List.length_map, List.length_cons] at *
  by_cases h1 : 1 < c.dps.length
  · rw [if_pos h1, comp_div, comp_vecSub _ _ _ (by simp [vecMulScalar, hd]), comp_mul]
    simp only [rofNat] at *
    have hlen : (c.dps.eraseIdx i).length = c.dps.length - 1 := by omega
    rw [hlen, hj, ← hs]
    have : ((c.dps.length - 1 : ℕ) : ℝ) ≠ 0 := by
      have : c.dps.length - 1 ≠ 0 := by omega
      exact_mod_cast this
    field_simp
    ring
  · have hlen : (c.dps.eraseIdx i).length = 0 := by omega
    rw [List.length_eq_zero_iff.1 hlen]
    simp [compSum]

theorem Evolves.mean {a b : Centroid ℝ} (h : Evolves a b) (hd : a.DimOK) (hm : a.MeanInv) : b.MeanInv := by
  induction h with
  | refl c => exact hm
  | @rm c c' i d h hs ih =>
    have he : Evolves c (c.rmP i d) := .rm h (.refl _)
    exact ih (he.dim hd).2 (hm.rmP h (hd d (List.mem_of_getElem? h)))
  | @add c c' d h hs ih =>
    exact ih (addRaw_dimOK h hd) (hm.addRaw h)

theorem Purged.evolves {F : Type} [GoFloat F] {tk : Nat → Int} {i p p' : Nat} {c c' : Centroid F} (h : Purged tk i p p' c c') :
    Evolves c c' := by
  obtain ⟨_, h, _⟩ := h.steps
  exact h.evolves

end Centroid
end Trypo
