import Verif.Spec.Trim
import Verif.Props.Vectors
import Verif.Props.Positive
import Verif.Proofs.KernelRfl

/-! C125: calling `MemTrim` again and again. -/

namespace Trypo
open GoFloat Spec EventLoop Service

namespace Centroid

/-- Removing a datapoint from a centroid that holds several keeps the difference between what its vector claims the sum to be and the sum. -/
theorem rmP_residual {c : Centroid ℝ} {i : Nat} {d : DataPoint ℝ} (hi : c.dps[i]? = some d) (hd : c.DimOK) (hn : 1 < c.dps.length) (j : Nat) :
    ((c.rmP i d).dps.length : ℝ) * comp j (c.rmP i d).vec - compSum j ((c.rmP i d).dps.map (fun d => d.vec)) =
      c.dps.length * comp j c.vec - compSum j (c.dps.map (fun d => d.vec)) := by
  have hdl := hd d (List.mem_of_getElem? hi)
  have hperm := perm_eraseIdx hi
  have hlen := hperm.length_eq
  simp only [List.length_cons] at hlen
  have hsum := compSum_perm (j := j) (hperm.map (fun d => d.vec))
  rw [List.map_cons, compSum_cons] at hsum
  have hdps : (c.rmP i d).dps = c.dps.eraseIdx i := rfl
  have hl' : (c.dps.eraseIdx i).length = c.dps.length - 1 := by omega
  have hc1 : ((c.dps.length - 1 : Nat) : ℝ) = c.dps.length - 1 := by rw [Nat.cast_sub (by omega)]; simp
  have hne : (c.dps.length : ℝ) - 1 ≠ 0 := by
    have : (1 : ℝ) < c.dps.length := by exact_mod_cast hn
    linarith
  have hv : comp j (c.rmP i d).vec = (comp j c.vec * c.dps.length - comp j d.vec) / (c.dps.length - 1) := by
    unfold rmP comp
    by_cases hj : j < c.vec.length
    · simp only [hn, if_true]
      rw [← hc1]
      simp [vecDivScalar, vecSub, vecMulScalar, hdl, List.getD_eq_getElem?_getD, hj]
    · have h1 : c.vec[j]? = none := List.getElem?_eq_none (by omega)
      have h2 : d.vec[j]? = none := List.getElem?_eq_none (by omega)
      simp [hn, vecDivScalar, vecSub, vecMulScalar, hdl, List.getD_eq_getElem?_getD, List.getElem?_zipWith, h1, h2]
  rw [hv, hdps, hl', hc1, mul_div_cancel₀ _ hne]
  linarith

/-- The vector that is left when all datapoints have been removed, one by one. -/
theorem RmSteps.left {a b : Centroid ℝ} {x : List (DataPoint ℝ)} (h : RmSteps a x b) (hd : a.DimOK) (hb : b.dps = []) :
    ∀ d, x.getLast? = some d → ∀ j, comp j b.vec = comp j d.vec + (a.dps.length * comp j a.vec - compSum j (a.dps.map (fun d => d.vec))) := by
  induction h with
  | refl c => intro d hd; simp at hd
  | @step c c' i d ds hi hs ih =>
    intro e he j
    have hlen := (RmSteps.step hi hs).length
    rw [hb] at hlen
    cases ds with
    | nil =>
      obtain rfl : d = e := by simpa using he
      have hl : c.dps.length = 1 := by simpa using hlen.symm
      cases hs
      have hv : (c.rmP i d).vec = c.vec := by unfold rmP; simp [hl]
      obtain ⟨y, hy⟩ := List.length_eq_one_iff.1 hl
      have hyd : y = d := by
        have := List.mem_of_getElem? hi
        rw [hy] at this
        simpa [eq_comm] using this
      rw [hv, hy, hyd]
      simp [compSum]
    | cons d' ds =>
      have hn : 1 < c.dps.length := by simp only [List.length_nil, List.length_cons] at hlen; omega
      have he' : Evolves c (c.rmP i d) := .rm hi (.refl _)
      rw [ih (he'.dim hd).2 hb e (by simpa using he) j, rmP_residual hi hd hn j]


/-- The vector left when the datapoints `x` are removed one by one from a centroid that holds only them. -/
def trimVec {F : Type} [GoFloat F] : List F → List (DataPoint F) → List F
  | v, [] => v
  | v, [_] => v
  | v, d :: e :: ds => trimVec (vecDivScalar (vecSub (vecMulScalar v (ofNat (ds.length + 2))) d.vec).1 (ofNat (ds.length + 1))) (e :: ds)

theorem RmSteps.trimVec {F : Type} [GoFloat F] {a b : Centroid F} {x : List (DataPoint F)} (h : RmSteps a x b) (hb : b.dps = []) :
    { b with dps := a.dps } = { a with vec := trimVec a.vec x } := by
  induction h with
  | refl c => rfl
  | @step c c' i d ds hi hs ih =>
    have hlen := (RmSteps.step hi hs).length
    rw [hb] at hlen
    have ih := ih hb
    have h1 : c'.vec = Centroid.trimVec (c.rmP i d).vec ds := congrArg Centroid.vec ih
    have h2 : c'.knn = c.knn := by
      have := congrArg Centroid.knn ih
      exact this
    have h3 : c'.kfn = c.kfn := by
      have := congrArg Centroid.kfn ih
      exact this
    rw [h1, h2, h3]
    congr 1
    cases ds with
    | nil =>
      simp only [List.length_nil, List.length_cons] at hlen
      simp only [Centroid.trimVec, rmP]
      rw [if_neg (by omega)]
    | cons e ds =>
      simp only [List.length_nil, List.length_cons] at hlen
      simp only [Centroid.trimVec]
      unfold rmP
      rw [if_pos (by omega)]
      have : c.dps.length = ds.length + 2 := by omega
      rw [this]
      rfl

/-- `MemTrim` when nothing has expired. -/
theorem wp_memTrim_live {F : Type} [GoFloat F] {tk : Nat → Int} {c : Centroid F} (hl : ∀ d ∈ c.dps, ∀ q, ¬ Dead (tk q) d) (p : Nat) :
    Go.wp (c.memTrim tk) (fun c' _ => c' = { c with vec := trimVec c.vec c.dps }) p := by
  refine Go.wp_mono (wp_memTrim tk c p) (fun c' p' h => ?_)
  obtain ⟨c0, h2, h3, _⟩ := h
  have h0 : c0.dps = [] := by
    have := h2.length
    exact List.length_eq_zero_iff.1 (by omega)
  rw [h3, Manager.liveReads_id _ _ hl]
  exact h2.trimVec h0

end Centroid

/-- `trimVec`, `k` times. -/
def trimVecs {F : Type} [GoFloat F] (ds : List (DataPoint F)) : Nat → List F → List F
  | 0, v => v
  | k + 1, v => trimVecs ds k (Centroid.trimVec v ds)

theorem wp_trims {F : Type} [GoFloat F] {tk : Nat → Int} : ∀ (k : Nat) (c : Centroid F) (_ : ∀ d ∈ c.dps, ∀ q, ¬ Dead (tk q) d) (p : Nat),
    Go.wp (trims tk k c) (fun c' _ => c' = { c with vec := trimVecs c.dps k c.vec }) p
  | 0, c, _, p => by
    unfold trims
    rw [Go.wp_pure]
    rfl
  | k + 1, c, hl, p => by
    unfold trims
    rw [Go.wp_bind]
    refine Go.wp_mono (Centroid.wp_memTrim_live hl p) (fun c1 p1 h1 => ?_)
    subst h1
    exact wp_trims k { c with vec := Centroid.trimVec c.vec c.dps } hl p1

/-- One `MemTrim` in exact arithmetic. -/
theorem trimVec_law {c : Centroid ℝ} (hd : ∀ d ∈ c.dps, d.vec.length = c.vec.length) (hn : 2 ≤ c.dps.length) :
    (Centroid.trimVec c.vec c.dps).length = c.vec.length ∧ ∀ j,
    comp j (Centroid.trimVec c.vec c.dps) - compSum j (c.dps.dropLast.map (fun d => d.vec)) / (c.dps.length - 1) =
      c.dps.length * (comp j c.vec - compSum j (c.dps.dropLast.map (fun d => d.vec)) / (c.dps.length - 1)) := by
  obtain ⟨_, p', _, c0, h2, h3, _⟩ := Go.wp_iff.1 (Centroid.wp_memTrim (fun _ => 0) c 0)
  have h0 : c0.dps = [] := by
    have := h2.length
    exact List.length_eq_zero_iff.1 (by omega)
  have hv0 : c0.vec = Centroid.trimVec c.vec c.dps := congrArg Centroid.vec (h2.trimVec h0)
  rw [← hv0]
  refine ⟨(h2.evolves.dim hd).1, fun j => ?_⟩
  have hne : c.dps ≠ [] := by
    intro h
    rw [h] at hn
    simp at hn
  have hlast := List.getLast?_eq_getLast_of_ne_nil hne
  have hv := h2.left hd h0 _ hlast j
  have hs : compSum j (c.dps.map (fun d => d.vec)) =
      compSum j (c.dps.dropLast.map (fun d => d.vec)) + comp j (c.dps.getLast hne).vec := by
    conv_lhs => rw [← List.dropLast_append_getLast hne]
    simp [compSum]
  have hne1 : (c.dps.length : ℝ) - 1 ≠ 0 := by
    have : (2 : ℝ) ≤ c.dps.length := by exact_mod_cast hn
    linarith
  rw [hv, hs]
  field_simp
  ring

theorem trimVecs_law (c : Centroid ℝ) : ∀ (k : Nat) (v : List ℝ), (∀ d ∈ c.dps, d.vec.length = v.length) → 2 ≤ c.dps.length → ∀ j,
    comp j (trimVecs c.dps k v) - compSum j (c.dps.dropLast.map (fun d => d.vec)) / (c.dps.length - 1) =
      c.dps.length ^ k * (comp j v - compSum j (c.dps.dropLast.map (fun d => d.vec)) / (c.dps.length - 1))
  | 0, v, _, _, j => by simp [trimVecs]
  | k + 1, v, hd, hn, j => by
    obtain ⟨h1, h2⟩ := trimVec_law (c := { c with vec := v }) hd hn
    unfold trimVecs
    rw [trimVecs_law c k _ (by rw [h1]; exact hd) hn j, h2 j, pow_succ, mul_assoc]

/-- C125, the law. In exact arithmetic, if a centroid holds `n ≥ 2` datapoints, none of which expires, then `MemTrim` multiplies the distance
of its vector from the mean of all datapoints but the last by `n`. After `k` calls it is `n ^ k` times what it was. The datapoints stay. -/
theorem C125_law {tk : Nat → Int} (c : Centroid ℝ) (hd : ∀ d ∈ c.dps, d.vec.length = c.vec.length)
    (hl : ∀ d ∈ c.dps, ∀ q, ¬ Dead (tk q) d) (hn : 2 ≤ c.dps.length) (k p : Nat) :
    ∃ c' p', trims tk k c p = .ok (c', p') ∧ c'.dps = c.dps ∧ ∀ j,
      comp j c'.vec - compSum j (c.dps.dropLast.map (fun d => d.vec)) / (c.dps.length - 1) =
        c.dps.length ^ k * (comp j c.vec - compSum j (c.dps.dropLast.map (fun d => d.vec)) / (c.dps.length - 1)) := by
  obtain ⟨c', p', h1, h2⟩ := Go.wp_iff.1 (wp_trims k c hl p)
  subst h2
  exact ⟨_, p', h1, rfl, trimVecs_law c k c.vec hd hn⟩

/-- C125, unboundedness. If the vector is not the mean of all datapoints but the last in some component, that component grows beyond any bound,
while the centroid holds the same datapoints throughout. -/
theorem C125_unbounded {tk : Nat → Int} (c : Centroid ℝ) (hd : ∀ d ∈ c.dps, d.vec.length = c.vec.length)
    (hl : ∀ d ∈ c.dps, ∀ q, ¬ Dead (tk q) d) (hn : 2 ≤ c.dps.length) {j : Nat}
    (hj : comp j c.vec ≠ compSum j (c.dps.dropLast.map (fun d => d.vec)) / (c.dps.length - 1)) (p : Nat) (B : ℝ) :
    ∃ k, ∀ k', k ≤ k' → ∃ c' p', trims tk k' c p = .ok (c', p') ∧ c'.dps = c.dps ∧ B < |comp j c'.vec| := by
  have h1 : (1 : ℝ) < c.dps.length := by exact_mod_cast (by omega : 1 < c.dps.length)
  have law := C125_law (tk := tk) c hd hl hn
  generalize hm : compSum j (c.dps.dropLast.map (fun d => d.vec)) / ((c.dps.length : ℝ) - 1) = m at hj
  have hpos : 0 < |comp j c.vec - m| := abs_pos.2 (sub_ne_zero.2 hj)
  obtain ⟨k, hk⟩ := pow_unbounded_of_one_lt ((B + |m|) / |comp j c.vec - m|) h1
  refine ⟨k, fun k' hk' => ?_⟩
  obtain ⟨c', p', g1, g2, g3⟩ := law k' p
  refine ⟨c', p', g1, g2, ?_⟩
  have g3 := congrArg abs (g3 j)
  rw [hm, abs_mul, abs_of_pos (pow_pos (by linarith : (0 : ℝ) < c.dps.length) k')] at g3
  have hk := hk.trans_le (pow_le_pow_right₀ h1.le hk')
  rw [div_lt_iff₀ hpos] at hk
  have := abs_sub (comp j c'.vec) m
  linarith

/-- C125, what holds. A centroid with at most one datapoint, not expired, keeps its vector however often `MemTrim` is called, and any centroid
keeps its datapoints. What is missing: the vector of a centroid with two or more datapoints. -/
theorem C125_small_partial {F : Type} [GoFloat F] {tk : Nat → Int} (c : Centroid F) (hl : ∀ d ∈ c.dps, ∀ q, ¬ Dead (tk q) d) (k p : Nat) :
    ∃ c' p', trims tk k c p = .ok (c', p') ∧ c'.dps = c.dps ∧ (c.dps.length ≤ 1 → c'.vec = c.vec) := by
  obtain ⟨c', p', h1, h2⟩ := Go.wp_iff.1 (wp_trims k c hl p)
  subst h2
  refine ⟨_, p', h1, rfl, fun hn => ?_⟩
  show trimVecs c.dps k c.vec = c.vec
  have h0 : ∀ v : List F, Centroid.trimVec v c.dps = v := by
    intro v
    match hds : c.dps with
    | [] => rfl
    | [_] => rfl
    | _ :: _ :: _ =>
      rw [hds] at hn
      simp at hn
  clear h1
  induction k with
  | zero => rfl
  | succ k ih => rw [trimVecs, h0]; exact ih

theorem trimVec_length {F : Type} [GoFloat F] : ∀ (v : List F) (ds : List (DataPoint F)), (∀ d ∈ ds, d.vec.length = v.length) →
    (Centroid.trimVec v ds).length = v.length
  | _, [], _ => rfl
  | _, [_], _ => rfl
  | v, d :: e :: ds, h => by
    have hl : (vecDivScalar (vecSub (vecMulScalar v (ofNat (ds.length + 2))) d.vec).1 (ofNat (ds.length + 1))).length = v.length := by
      simp [vecDivScalar, vecSub, vecMulScalar, h d (by simp)]
    unfold Centroid.trimVec
    rw [trimVec_length _ (e :: ds) (fun x hx => by rw [hl]; exact h x (by simp only [List.mem_cons] at hx ⊢; exact .inr hx)), hl]

theorem trimVecs_length {F : Type} [GoFloat F] {ds : List (DataPoint F)} : ∀ (k : Nat) (v : List F), (∀ d ∈ ds, d.vec.length = v.length) →
    (trimVecs ds k v).length = v.length
  | 0, _, _ => rfl
  | k + 1, v, h => by
    have := trimVec_length v ds h
    rw [trimVecs, trimVecs_length k _ (by rw [this]; exact h), this]

/-- C125, the remedy. `MoveVector`, which is part of every `DistributeInternal`, gives the centroid the mean of its datapoints again, in whatever
arithmetic and however often `MemTrim` was called before. -/
theorem C125_moved {F : Type} [GoFloat F] {tk : Nat → Int} (hm : MonoClock tk) (c : Centroid F) (hd : ∀ d ∈ c.dps, d.vec.length = c.vec.length)
    (hl : ∀ d ∈ c.dps, ∀ q, ¬ Dead (tk q) d) (hne : c.dps ≠ []) (k p : Nat) :
    ∃ c' p' r p'', trims tk k c p = .ok (c', p') ∧ c'.moveVector tk p' = .ok (r, p'') ∧ r.1 = true ∧ r.2.dps = c.dps ∧
      r.2.vec = (vecMean (c.dps.map (fun d => d.vec))).1 := by
  obtain ⟨c', p', h1, h2⟩ := Go.wp_iff.1 (wp_trims k c hl p)
  subst h2
  obtain ⟨r, p'', g1, c1, g2, g3⟩ := Go.wp_iff.1 (Centroid.wp_moveVector hm { c with vec := trimVecs c.dps k c.vec } (fun d h => by
    show d.vec.length = (trimVecs c.dps k c.vec).length
    rw [trimVecs_length k c.vec hd]
    exact hd d h) p')
  have hc1 : c1.dps = c.dps := by
    obtain ⟨removed, s1, s2⟩ := g2.steps
    cases s1 with
    | refl => rfl
    | step hi _ => exact absurd (s2 _ (by simp)) (hl _ (List.mem_of_getElem? hi) _)
  have hflag : (vecMean (c1.dps.map (fun d => d.vec))).2 = true := by
    rw [hc1, (C01_vecMean_flag _).1]
    obtain ⟨d, l, hl⟩ := List.exists_cons_of_ne_nil hne
    refine ⟨d.vec, by rw [hl]; rfl, fun w hw => ?_⟩
    obtain ⟨e, he, rfl⟩ := List.mem_map.1 hw
    rw [hd e he, hd d (by rw [hl]; simp)]
  rw [if_pos hflag, hc1] at g3
  subst g3
  exact ⟨_, p', _, p'', h1, g1, rfl, rfl, rfl⟩

namespace Manager

/-- `MemTrim` of a manager with one centroid, of which nothing has expired. -/
theorem wp_memTrim_one {F : Type} [GoFloat F] {tk : Nat → Int} {c : Centroid F} (hl : ∀ d ∈ c.dps, ∀ q, ¬ Dead (tk q) d) (hne : c.dps ≠ [])
    (v : List F) (a t : Int) (knn kfn : Search F) (p : Nat) :
    Go.wp (memTrim tk ⟨v, a, [c], t, knn, kfn⟩)
      (fun cm' _ => ∃ v', cm' = ⟨v', a, [{ c with vec := Centroid.trimVec c.vec c.dps }], t, knn, kfn⟩) p := by
  unfold memTrim
  simp only [Go.wp_bind, Go.wp_pure]
  have e : List.range [c].length = [0] := rfl
  show Go.wp (memTrimLoop tk (List.range [c].length) _ []) _ p
  rw [e]
  unfold memTrimLoop onCentroid
  simp only [Go.wp_bind, Go.wp_pure, Go.wp_idx]
  refine ⟨c, rfl, ?_⟩
  refine Go.wp_mono (Centroid.wp_memTrim_live hl p) (fun c1 p1 h1 => ?_)
  subst h1
  have hz : Centroid.lenDP { c with vec := Centroid.trimVec c.vec c.dps } ≠ 0 := by
    show c.dps.length ≠ 0
    exact fun h => hne (List.length_eq_zero_iff.1 h)
  rw [if_neg (by simp [updateVec])]
  unfold memTrimLoop
  rw [Go.wp_pure, if_pos hz]
  exact ⟨_, rfl⟩

theorem wp_memTrims_one {F : Type} [GoFloat F] {tk : Nat → Int} {a t : Int} {knn kfn : Search F} {acc out : List (DataPoint F)} {ds : List (DataPoint F)}
    (hl : ∀ d ∈ ds, ∀ q, ¬ Dead (tk q) d) (hne : ds ≠ []) {sk sf : Search F} : ∀ (k : Nat) (v w : List F) (p : Nat),
    Go.wp (runManagerCalls tk (List.replicate k .memTrim) ⟨⟨v, a, [⟨w, ds, sk, sf⟩], t, knn, kfn⟩, acc, out⟩)
      (fun r _ => ∃ v', r = ⟨⟨v', a, [⟨trimVecs ds k w, ds, sk, sf⟩], t, knn, kfn⟩, acc, out⟩) p
  | 0, v, w, p => by
    rw [List.replicate_zero]
    unfold runManagerCalls
    rw [Go.wp_pure]
    exact ⟨v, rfl⟩
  | k + 1, v, w, p => by
    rw [List.replicate_succ]
    unfold runManagerCalls
    simp only [ManagerCall.run, Go.wp_bind, Go.wp_pure]
    refine Go.wp_mono (wp_memTrim_one (c := ⟨w, ds, sk, sf⟩) hl hne v a t knn kfn p) (fun cm1 p1 h => ?_)
    obtain ⟨v', rfl⟩ := h
    exact wp_memTrims_one hl hne k v' _ p1

end Manager

namespace F64

theorem rneDiv_scale (a b : Nat) {d : Nat} (hd : 0 < d) : rneDiv (a * d) (b * d) = rneDiv a b := by
  unfold rneDiv
  simp only [Nat.mul_div_mul_right _ _ hd, Nat.mul_mod_mul_right, ← Nat.mul_assoc, Nat.mul_lt_mul_right hd]

theorem roundMag_scale (k : Nat) {d : Nat} (hd : 0 < d) : roundMag (k * d) d = roundMag k 1 := by
  unfold roundMag
  simp only [Nat.mul_div_cancel _ hd, Nat.div_one, one_mul]
  rw [Nat.mul_comm d, rneDiv_scale _ _ hd]

/-- A number with at most 53 significant bits is not rounded, but may be too large. -/
theorem roundMag_rep {k : Nat} (hk : Representable k) : roundMag k 1 = if k < TOP then some k else none := by
  obtain ⟨m, e, hm, rfl⟩ := hk
  obtain ⟨j, hj, hlo, hhi⟩ := ulp_pow (m * 2 ^ e)
  unfold roundMag
  simp only [Nat.div_one, one_mul, hj]
  have hje : j ≤ e := by
    by_contra hlt
    rcases hlo with h0 | h0
    · omega
    · have h1 : m * 2 ^ e < 2 ^ 53 * 2 ^ e := Nat.mul_lt_mul_of_pos_right hm (by positivity)
      rw [← pow_add] at h1
      have h2 : 2 ^ (53 + e) ≤ 2 ^ (52 + j) := Nat.pow_le_pow_right (by omega) (by omega)
      exact absurd (h0.trans_lt h1) (not_lt.2 h2)
  have e1 : m * 2 ^ e = m * 2 ^ (e - j) * 2 ^ j := by rw [mul_assoc, ← pow_add, Nat.sub_add_cancel hje]
  have e2 : rneDiv (m * 2 ^ e) (2 ^ j) = m * 2 ^ (e - j) := by
    rw [e1]
    unfold rneDiv
    have hp : 0 < 2 ^ j := by positivity
    simp only [Nat.mul_mod_left, mul_zero, hp, if_true]
    exact Nat.mul_div_cancel _ hp
  rw [e2, ← e1]

end F64

namespace TrimExample
open PositiveExample F64

/-- `2 ^ i` as a double, and infinity from `i = 1024` on. -/
def pow2 (i : Nat) : F64 := if i < 1024 then .fin false (2 ^ (1074 + i)) else .inf false

theorem top_pow (i : Nat) : roundMag (2 ^ (1074 + i)) 1 = if i < 1024 then some (2 ^ (1074 + i)) else none := by
  rw [roundMag_rep ⟨1, _, by norm_num, by rw [one_mul]⟩, top_def]
  have : 2 ^ (1074 + i) < 2 ^ 2098 ↔ i < 1024 := by
    rw [Nat.pow_lt_pow_iff_right (by norm_num)]
    omega
  simp only [this]

theorem div_fin_fin {ka kb : Nat} (h : kb ≠ 0) : F64.div (.fin false ka) (.fin false kb) = F64.mk false (ka * UNIT) kb := by
  unfold F64.div
  simp only [h, if_false, bne_self_eq_false]

theorem mul_inf_fin {kb : Nat} (h : kb ≠ 0) : F64.mul (.inf false) (.fin false kb) = .inf false := by
  unfold F64.mul
  simp only [h, if_false, bne_self_eq_false]

theorem mul_fin_fin (ka kb : Nat) : F64.mul (.fin false ka) (.fin false kb) = F64.mk false (ka * kb) UNIT := rfl

theorem sub_fin_zero {ka : Nat} (h : 0 < ka) : F64.sub (.fin false ka) (.fin false 0) = F64.mk false ka 1 := by
  unfold F64.sub F64.negate F64.add
  simp only [Bool.not_false, Bool.false_eq_true, if_false, Nat.sub_zero, h.ne', h, if_true]

theorem mk_scale (k : Nat) {d : Nat} (hd : 0 < d) : F64.mk false (k * d) d = F64.mk false k 1 := by
  unfold F64.mk
  rw [roundMag_scale k hd]

theorem mk_pow2 (i : Nat) : F64.mk false (2 ^ (1074 + i)) 1 = pow2 i := by
  unfold F64.mk pow2
  rw [top_pow]
  by_cases h : i < 1024
  · rw [if_pos h, if_pos h]
  · rw [if_neg h, if_neg h]

theorem mul_pow2 (i : Nat) : F64.mul (pow2 i) (.fin false (2 * UNIT)) = pow2 (i + 1) := by
  by_cases hi : i < 1024
  · have : pow2 i = .fin false (2 ^ (1074 + i)) := if_pos hi
    rw [this, mul_fin_fin, ← Nat.mul_assoc, mk_scale _ unit_pos, ← mk_pow2 (i + 1), ← Nat.add_assoc, Nat.pow_succ]
  · have h1 : pow2 i = .inf false := if_neg hi
    have h2 : pow2 (i + 1) = .inf false := if_neg (by omega)
    have hU := unit_pos
    rw [h1, h2, mul_inf_fin (by omega)]

theorem sub_pow2 (i : Nat) : F64.sub (pow2 i) (.fin false 0) = pow2 i := by
  by_cases hi : i < 1024
  · have : pow2 i = .fin false (2 ^ (1074 + i)) := if_pos hi
    rw [this, sub_fin_zero (by positivity), mk_pow2, this]
  · have : pow2 i = .inf false := if_neg hi
    rw [this]
    rfl

theorem div_pow2 (i : Nat) : F64.div (pow2 i) (.fin false UNIT) = pow2 i := by
  by_cases hi : i < 1024
  · have : pow2 i = .fin false (2 ^ (1074 + i)) := if_pos hi
    rw [this, div_fin_fin unit_pos.ne', mk_scale _ unit_pos, mk_pow2, this]
  · have : pow2 i = .inf false := if_neg hi
    rw [this]
    rfl

theorem step_pow2 (i : Nat) : F64.div (F64.sub (F64.mul (pow2 i) (F64.ofNat 2)) (F64.ofNat 0)) (F64.ofNat 1) = pow2 (i + 1) := by
  have e2 : F64.ofNat 2 = .fin false (2 * UNIT) := ofNat_eq (by norm_num)
  have e1 : F64.ofNat 1 = .fin false UNIT := (ofNat_eq (by norm_num)).trans (by rw [Nat.one_mul])
  have e0 : F64.ofNat 0 = .fin false 0 := (ofNat_eq (by norm_num)).trans (by rw [Nat.zero_mul])
  rw [e2, e1, e0, mul_pow2, sub_pow2, div_pow2]

/-- What the centroid holds. -/
def both : List (DataPoint F64) := [pt 0 1, pt 2 1]

theorem trimVec_pow2 (i : Nat) : Centroid.trimVec [pow2 i, F64.ofNat 1] both = [pow2 (i + 1), F64.ofNat 1] := by
  show [F64.div (F64.sub (F64.mul (pow2 i) (F64.ofNat 2)) (F64.ofNat 0)) (F64.ofNat 1),
    F64.div (F64.sub (F64.mul (F64.ofNat 1) (F64.ofNat 2)) (F64.ofNat 1)) (F64.ofNat 1)] = _
  rw [step_pow2]
  have : F64.div (F64.sub (F64.mul (F64.ofNat 1) (F64.ofNat 2)) (F64.ofNat 1)) (F64.ofNat 1) = F64.ofNat 1 := by decide +kernel
  rw [this]

theorem trimVecs_pow2 : ∀ (k i : Nat), trimVecs both k [pow2 i, F64.ofNat 1] = [pow2 (i + k), F64.ofNat 1]
  | 0, _ => rfl
  | k + 1, i => by
    rw [trimVecs, trimVec_pow2, trimVecs_pow2 k (i + 1)]
    congr 2
    omega

/-- The manager that holds them, but for its vector. -/
def mgr (v w : List F64) : Manager F64 := ⟨v, 1, [⟨w, both, knnCos, kfnCos⟩], 10, knnCos, kfnCos⟩

/-- The world without the vector of the manager. -/
def noVec (w : ManagerWorld F64) : ManagerWorld F64 := ⟨{ w.cm with vec := [] }, w.accepted, w.out⟩

theorem built : (runManager (fun _ => 0) (FloatExample.nats [1, 1]) 1 10 knnCos kfnCos [.add (pt 0 1), .add (pt 2 1)] 0).map
    (fun r => noVec r.1) = .ok ⟨mgr [] [pow2 0, F64.ofNat 1], [pt 2 1, pt 0 1], []⟩ := by
  kernel_rfl

theorem refuses (v : List F64) (p : Nat) : (runManagerCalls (fun _ => 0) [.add (pt 1 1)] ⟨mgr v [.inf false, F64.ofNat 1], [pt 2 1, pt 0 1], []⟩ p).map
    (fun r => id r.1) = .ok ⟨mgr v [.inf false, F64.ofNat 1], [pt 2 1, pt 0 1], []⟩ := by
  kernel_rfl

/-- What is stored, how many datapoints were accepted, and the vectors of the centroids. -/
def obsT (w : ManagerWorld F64) : List (DataPoint F64) × Nat × List (List F64) := (w.stored, w.accepted.length, w.cm.centroids.map (fun c => c.vec))

theorem wp_calls_append {F : Type} [GoFloat F] (tk : Nat → Int) {Q : ManagerWorld F → Nat → Prop} : ∀ (a b : List (ManagerCall F)) (w : ManagerWorld F)
    (p : Nat), Go.wp (runManagerCalls tk a w) (fun w' p' => Go.wp (runManagerCalls tk b w') Q p') p → Go.wp (runManagerCalls tk (a ++ b) w) Q p
  | [], b, w, p, h => h
  | o :: a, b, w, p, h => by
    have h : Go.wp (o.run tk w >>= fun w' => runManagerCalls tk a w') _ p := h
    show Go.wp (o.run tk w >>= fun w' => runManagerCalls tk (a ++ b) w') _ p
    rw [Go.wp_bind] at *
    exact Go.wp_mono h (fun w' p' h => wp_calls_append tk a b w' p' h)

theorem wp_run_append {F : Type} [GoFloat F] {tk : Nat → Int} {v : List F} {a t : Int} {knn kfn : Search F} {Q : ManagerWorld F → Nat → Prop}
    {x y : List (ManagerCall F)} {p : Nat} (h : Go.wp (runManager tk v a t knn kfn x) (fun w' p' => Go.wp (runManagerCalls tk y w') Q p') p) :
    Go.wp (runManager tk v a t knn kfn (x ++ y)) Q p := by
  unfold runManager at *
  rw [Go.wp_bind] at *
  refine Go.wp_mono h (fun r p' h => ?_)
  cases r with
  | none => exact h
  | some cm => exact wp_calls_append tk x y _ p' h

theorem both_live : ∀ d ∈ both, ∀ q, ¬ Dead ((fun _ => 0 : Nat → Int) q) d := by
  intro d hd q h
  simp only [both, List.mem_cons, List.not_mem_nil, or_false] at hd
  rcases hd with rfl | rfl <;> exact absurd h.1 (by simp [pt])

theorem wp_of_map {α β : Type} (m : Go α) (p : Nat) (f : α → β) (b : β) (h : (m p).map (fun r => f r.1) = .ok b) {Q : α → Nat → Prop}
    (hq : ∀ a p', f a = b → Q a p') : Go.wp m Q p := by
  cases hm : m p with
  | error e => rw [hm] at h; cases h
  | ok r =>
    rw [hm] at h
    exact Go.wp_iff.2 ⟨r.1, r.2, hm, hq _ _ (Except.ok.inj h)⟩

attribute [local irreducible] Go.wp

/-- The two additions, `k` calls of `MemTrim`. -/
theorem trimmed (k : Nat) {os : List (ManagerCall F64)} {Q : ManagerWorld F64 → Nat → Prop}
    (h : ∀ v p, Go.wp (runManagerCalls (fun _ => 0) os ⟨mgr v [pow2 k, F64.ofNat 1], [pt 2 1, pt 0 1], []⟩) Q p) :
    Go.wp (runManager (fun _ => 0) (FloatExample.nats [1, 1]) 1 10 knnCos kfnCos
      ([.add (pt 0 1), .add (pt 2 1)] ++ (List.replicate k .memTrim ++ os))) Q 0 := by
  refine wp_run_append ?_
  refine wp_of_map _ _ noVec _ built ?_
  intro w p hw
  obtain ⟨⟨v, cap, cs, th, a, b⟩, acc, out⟩ := w
  simp only [noVec, mgr, ManagerWorld.mk.injEq, Manager.mk.injEq, true_and] at hw
  obtain ⟨⟨rfl, rfl, rfl, rfl, rfl⟩, rfl, rfl⟩ := hw
  have hne : both ≠ [] := List.cons_ne_nil _ _
  have ht := Manager.wp_memTrims_one (a := 1) (t := 10) (knn := knnCos) (kfn := kfnCos) (acc := [pt 2 1, pt 0 1]) (out := []) (sk := knnCos)
    (sf := kfnCos) both_live hne k v [pow2 0, F64.ofNat 1] p
  refine wp_calls_append _ _ _ _ _ (Go.wp_mono ht (fun w' p' hw' => ?_))
  obtain ⟨v', rfl⟩ := hw'
  rw [trimVecs_pow2, Nat.zero_add]
  exact h v' p'

theorem pow2_big : pow2 1024 = .inf false := if_neg (by omega)

end TrimExample
open PositiveExample TrimExample

attribute [local irreducible] Go.wp in
/-- C125 is false. `(0, 1)` and `(2, 1)` are stored; their mean is `(1, 1)`, and so is the vector of the only centroid. `MemTrim` is called 1024
times; nothing has expired, nothing is removed. Now the vector is `(+Inf, 1)`, and `(1, 1)` is refused. -/
theorem C125_refuted : ∃ w p, runManager (fun _ => 0) (FloatExample.nats [1, 1]) 1 10 knnCos kfnCos
      ([.add (pt 0 1), .add (pt 2 1)] ++ (List.replicate 1024 .memTrim ++ [.add (pt 1 1)])) 0 = .ok (w, p) ∧
    obsT w = ([pt 0 1, pt 2 1], 2, [[.inf false, F64.ofNat 1]]) := by
  have h := trimmed 1024 (os := [.add (pt 1 1)]) (Q := fun w _ => obsT w = ([pt 0 1, pt 2 1], 2, [[.inf false, F64.ofNat 1]])) (fun v p => by
    rw [pow2_big]
    refine wp_of_map _ _ id _ (refuses v p) ?_
    intro w p' hw
    rw [show w = _ from hw]
    rfl)
  exact Go.wp_iff.1 h

namespace TrimExample
open PositiveExample

/-- C125: without the calls of `MemTrim` it is accepted. -/
example : ∃ w p, runManager (fun _ => 0) (FloatExample.nats [1, 1]) 1 10 knnCos kfnCos [.add (pt 0 1), .add (pt 2 1), .add (pt 1 1)] 0 = .ok (w, p) ∧
    obsT w = ([pt 0 1, pt 2 1, pt 1 1], 3, [[F64.ofNat 1, F64.ofNat 1]]) :=
  exists_of_run (by decide +kernel)

/-- C125: three calls take the vector from `(1, 1)` to `(8, 1)`. -/
example : ∃ w p, runManager (fun _ => 0) (FloatExample.nats [1, 1]) 1 10 knnCos kfnCos
    [.add (pt 0 1), .add (pt 2 1), .memTrim, .memTrim, .memTrim] 0 = .ok (w, p) ∧ obsT w = ([pt 0 1, pt 2 1], 2, [[F64.ofNat 8, F64.ofNat 1]]) :=
  exists_of_run (by decide +kernel)

/-- C125: `DistributeInternal` makes it the mean again. -/
example : ∃ w p, runManager (fun _ => 0) (FloatExample.nats [1, 1]) 1 10 knnCos kfnCos
    [.add (pt 0 1), .add (pt 2 1), .memTrim, .memTrim, .memTrim, .distributeInternal 10 id] 0 = .ok (w, p) ∧
      obsT w = ([pt 0 1, pt 2 1], 2, [[F64.ofNat 1, F64.ofNat 1]]) :=
  exists_of_run (by decide +kernel)

/-- A centroid with the datapoints 1, 3 and 8, whose mean is 4. -/
noncomputable def ctr4 : Centroid ℝ := ⟨[4], [⟨[1], [], 0, false⟩, ⟨[3], [], 0, false⟩, ⟨[8], [], 0, false⟩], knnEuc, kfnEuc⟩

/-- C125, the law: the mean of 1 and 3 is 2, so after `k` calls the vector is `2 + 3 ^ k * (4 - 2)`. -/
example (k : Nat) : ∃ c' p', trims (fun _ => 1) k ctr4 0 = .ok (c', p') ∧ c'.dps = ctr4.dps ∧ comp 0 c'.vec = 2 + 3 ^ k * 2 := by
  obtain ⟨c', p', h1, h2, h3⟩ := C125_law (tk := fun _ => 1) ctr4 (by simp [ctr4]) (by simp [ctr4, Dead]) (by simp [ctr4]) k 0
  refine ⟨c', p', h1, h2, ?_⟩
  have h := h3 0
  simp [ctr4, compSum, comp] at h ⊢
  norm_num at h
  linarith

/-- C125: it exceeds a million. -/
example : ∃ k, ∀ k', k ≤ k' → ∃ c' p', trims (fun _ => 1) k' ctr4 0 = .ok (c', p') ∧ c'.dps = ctr4.dps ∧ 1000000 < |comp 0 c'.vec| :=
  C125_unbounded ctr4 (by simp [ctr4]) (by simp [ctr4, Dead]) (by simp [ctr4]) (by simp [ctr4, compSum, comp]; norm_num) 0 1000000

/-- C125: after any number of calls, `MoveVector` makes it 4 again. -/
example (k : Nat) : ∃ c' p' r p'', trims (fun _ => 1) k ctr4 0 = .ok (c', p') ∧ c'.moveVector (fun _ => 1) p' = .ok (r, p'') ∧ r.2.vec = [4] := by
  obtain ⟨c', p', r, p'', h1, h2, _, _, h3⟩ := C125_moved (tk := fun _ => 1) (fun _ _ _ => Int.le_refl _) ctr4 (by simp [ctr4]) (by simp [ctr4, Dead])
    (by simp [ctr4]) k 0
  refine ⟨c', p', r, p'', h1, h2, ?_⟩
  rw [h3]
  simp only [ctr4, vecMean, vecMeanLoop, List.map, GoFloat.div, GoFloat.add, GoFloat.ofNat]
  norm_num

/-- C125: the vector of a centroid with one datapoint does not change, not even one that is not the datapoint. -/
example (k : Nat) : ∃ c' p', trims (fun _ => 1) k (⟨[F64.ofNat 7], [⟨[F64.ofNat 3], [], 0, false⟩], knnEuc, kfnEuc⟩ : Centroid F64) 0 = .ok (c', p') ∧
    c'.vec = [F64.ofNat 7] := by
  obtain ⟨c', p', h1, h2, h3⟩ := C125_small_partial (tk := fun _ => 1)
    (⟨[F64.ofNat 7], [⟨[F64.ofNat 3], [], 0, false⟩], knnEuc, kfnEuc⟩ : Centroid F64) (by simp [Dead]) k 0
  exact ⟨c', p', h1, h3 (Nat.le_refl 1)⟩

end TrimExample

end Trypo
