import Verif.Proofs.Symmetry
import Verif.Props.MathUtils
import Verif.Proofs.ManagerHistory
import Verif.Model.F64
import Mathlib.Tactic.LinearCombination

/-!
# C135: the same data in other coordinates
-/

set_option linter.unusedSectionVars false

namespace Trypo
open GoFloat Spec

variable {F : Type} [GoFloat F]

namespace Similar
variable {φ ψ : List ℝ → List ℝ}

theorem equi (h : Similarity φ ψ) : Equi φ ψ := by
  have hm : ∀ v (s : ℝ), (φ v).map (fun x => x * s) = φ (v.map fun x => x * s) := by
    intro v s
    have := h.smul v s
    simp only [mul_comm s] at this
    exact this.symm
  have hneg : ∀ v w : List ℝ, List.zipWith (fun a b => a - b) v w = List.zipWith (· + ·) v (w.map ((-1 : ℝ) * ·)) := by
    intro v w
    rw [List.zipWith_map_right]
    congr 1
    funext a b; ring
  refine ⟨h.length, h.left, h.right, fun v w hl => ?_, fun v w hl => ?_, fun v s => ?_, fun v s => ?_⟩
  · exact (h.add v w hl).symm
  · show List.zipWith (fun a b => a - b) (φ v) (φ w) = φ (List.zipWith (fun a b => a - b) v w)
    rw [hneg, hneg, h.add _ _ (by simpa using hl), h.smul]
  · exact hm v s
  · have := hm v s⁻¹
    simpa only [rdiv, div_eq_mul_inv] using this

theorem nonZero_iff (h : Similarity φ ψ) (v : List ℝ) : NonZero (φ v) ↔ NonZero v := by
  obtain ⟨s, hs, hi⟩ := h.inner
  have h1 := inner_self_eq_zero v
  have h2 := inner_self_eq_zero (φ v)
  rw [hi v v rfl, mul_eq_zero, or_iff_right hs.ne'] at h2
  tauto

/-- The cosine does not see the coordinates. -/
theorem cos (h : Similarity φ ψ) (v w : List ℝ) : cosineSimilarity (φ v) (φ w) = cosineSimilarity v w := by
  by_cases hl : v.length = w.length
  · have hl' : (φ v).length = (φ w).length := by rw [h.length, h.length, hl]
    have hform : inner (φ v) (φ w) / len (φ v) / len (φ w) = inner v w / len v / len w := by
      obtain ⟨s, hs, hi⟩ := h.inner
      unfold len
      rw [hi v w hl, hi v v rfl, hi w w rfl, Real.sqrt_mul hs.le, Real.sqrt_mul hs.le]
      have hq : Real.sqrt s * Real.sqrt s = s := Real.mul_self_sqrt hs.le
      have hq0 : Real.sqrt s ≠ 0 := (Real.sqrt_pos.2 hs).ne'
      rw [div_div, div_div, show Real.sqrt s * Real.sqrt (inner v v) * (Real.sqrt s * Real.sqrt (inner w w)) =
        s * (Real.sqrt (inner v v) * Real.sqrt (inner w w)) by linear_combination (Real.sqrt (inner v v) * Real.sqrt (inner w w)) * hq,
        mul_div_mul_left _ _ hs.ne']
    by_cases hv : NonZero v
    · rw [cos_real hl hv, cos_real hl' ((nonZero_iff h v).2 hv), hform]
    · by_cases hw : NonZero w
      · rw [cos_real' hl hw, cos_real' hl' ((nonZero_iff h w).2 hw), hform]
      · rw [C04_cos_zero _ _ hl hv hw, C04_cos_zero _ _ hl' (mt (nonZero_iff h v).1 hv) (mt (nonZero_iff h w).1 hw)]
  · unfold cosineSimilarity
    rw [h.length, h.length, if_pos hl, if_pos hl]

theorem symm (h : Similarity φ ψ) : Similarity ψ φ := by
  obtain ⟨s, hs, hi⟩ := h.inner
  have hlen : ∀ v, (ψ v).length = v.length := fun v => by rw [← h.length, h.right]
  have inj : ∀ v w, φ v = φ w → v = w := fun v w e => by rw [← h.left v, e, h.left]
  refine ⟨hlen, h.right, h.left, fun v w hl => inj _ _ ?_, fun v a => inj _ _ ?_, s⁻¹, inv_pos.2 hs, fun v w hl => ?_⟩
  · rw [h.right, h.add _ _ (by rw [hlen, hlen, hl]), h.right, h.right]
  · rw [h.right, h.smul, h.right]
  · have := hi (ψ v) (ψ w) (by rw [hlen, hlen, hl])
    rw [h.right, h.right] at this
    rw [this, ← mul_assoc, inv_mul_cancel₀ hs.ne', one_mul]

theorem comp {φ' ψ' : List ℝ → List ℝ} (h : Similarity φ ψ) (h' : Similarity φ' ψ') : Similarity (φ' ∘ φ) (ψ ∘ ψ') := by
  obtain ⟨s, hs, hi⟩ := h.inner
  obtain ⟨s', hs', hi'⟩ := h'.inner
  refine ⟨fun v => by simp [h'.length, h.length], fun v => by simp [h'.left, h.left], fun v => by simp [h'.right, h.right],
    fun v w hl => ?_, fun v a => ?_, s' * s, mul_pos hs' hs, fun v w hl => ?_⟩
  · simp only [Function.comp]; rw [h.add v w hl, h'.add _ _ (by rw [h.length, h.length, hl])]
  · simp only [Function.comp]; rw [h.smul, h'.smul]
  · simp only [Function.comp]; rw [hi' _ _ (by rw [h.length, h.length, hl]), hi v w hl]; ring

theorem knnLoop_moved (f : List F → List F) (dist : List F → List F → Option F) (hd : ∀ v w, dist (f v) (f w) = dist v w) (t : List F) (asc : Bool) :
    ∀ (pool : List (List F)) (res : List (ResultItem F)) (i : Nat), knnLoop (f t) dist asc res i (pool.map f) = knnLoop t dist asc res i pool
  | [], res, i => rfl
  | v :: pool, res, i => by
    simp only [List.map_cons, knnLoop, hd]
    cases dist t v with
    | none => exact knnLoop_moved f dist hd t asc pool _ _
    | some x => exact knnLoop_moved f dist hd t asc pool _ _

theorem search (h : Similarity φ ψ) : moveSearch ψ knnCos = knnCos ∧ moveSearch ψ kfnCos = kfnCos := by
  constructor <;>
  · funext v pool k
    simp only [moveSearch, knnCos, kfnCos, knnBrute]
    rw [knnLoop_moved ψ cosineSimilarity (fun v w => cos (symm h) v w)]

end Similar

/-- C135 in any arithmetic, for any search functions: a change of coordinates that the arithmetic on vectors does not notice is not
noticed by a manager either. The whole history in new coordinates, with the search functions in new coordinates, panics exactly
when the history does and ends with the same groups, the same accepted and handed out datapoints - in new coordinates. -/
theorem C135_any_arithmetic {φ ψ : List F → List F} (e : Equi φ ψ) (tk : Nat → Int) (iv : List F) (cap thr : Int) (knn kfn : Search F)
    (os : List (ManagerCall F)) :
    runManager tk (φ iv) cap thr (moveSearch ψ knn) (moveSearch ψ kfn) (os.map (moveCall φ ψ)) =
      moveWorld φ ψ <$> runManager tk iv cap thr knn kfn os :=
  e.run tk iv cap thr knn kfn os

/-- C135 in exact arithmetic, for the cosine searches: after rotating, mirroring and scaling all vectors, a manager makes the same
groups and hands out the same datapoints, in the same order. -/
theorem C135_similarity_partial {φ ψ : List ℝ → List ℝ} (h : Similarity φ ψ) (tk : Nat → Int) (iv : List ℝ) (cap thr : Int)
    (os : List (ManagerCall ℝ)) :
    runManager tk (φ iv) cap thr knnCos kfnCos (os.map (moveCall φ ψ)) = moveWorld φ ψ <$> runManager tk iv cap thr knnCos kfnCos os := by
  have := C135_any_arithmetic (Similar.equi h) tk iv cap thr knnCos kfnCos os
  rwa [(Similar.search h).1, (Similar.search h).2] at this

/-- C135 for the answers: the payloads of a query and their order do not depend on the coordinates. -/
theorem C135_answers_partial {φ ψ : List ℝ → List ℝ} (h : Similarity φ ψ) (tk : Nat → Int) (iv : List ℝ) (cap thr : Int)
    (os : List (ManagerCall ℝ)) (v : List ℝ) (k : Int) (drain : Bool) :
    asked tk (φ iv) cap thr knnCos kfnCos (os.map (moveCall φ ψ)) (φ v) k drain = asked tk iv cap thr knnCos kfnCos os v k drain := by
  unfold asked
  rw [C135_similarity_partial h]
  simp only [bind_map_left]
  refine bind_congr fun w => ?_
  have := (Similar.equi h).managerLookup tk w.cm v k drain
  simp only [moveWorld]
  rw [this]
  simp only [bind_map_left, List.map_map]
  rfl

namespace SymmetryExample

/-- All numbers in another unit. -/
def scale (a : ℝ) (v : List ℝ) : List ℝ := v.map (a * ·)

theorem scale_similar {a : ℝ} (ha : a ≠ 0) : Similarity (scale a) (scale a⁻¹) := by
  have hid : ∀ b : ℝ, b ≠ 0 → ∀ v, scale b⁻¹ (scale b v) = v := by
    intro b hb v
    simp [scale, Function.comp_def, hb]
  refine ⟨fun v => by simp [scale], hid a ha, fun v => by simpa using hid a⁻¹ (inv_ne_zero ha) v, ?_, ?_, a * a, mul_self_pos.2 ha, ?_⟩
  · intro v w _
    unfold scale
    rw [List.map_zipWith, List.zipWith_map]
    congr 1
    funext x y; ring
  · intro v b
    simp only [scale, List.map_map]
    congr 1
    funext x; simp only [Function.comp]; ring
  · intro v w _
    unfold scale Spec.inner
    rw [List.zip_map, List.map_map, ← List.sum_map_mul_left]
    congr 2
    funext x; simp only [Function.comp, Prod.map]; ring

/-- The coordinates in reverse order. -/
theorem reverse_similar : Similarity List.reverse List.reverse := by
  refine ⟨fun v => by simp, fun v => by simp, fun v => by simp, ?_, fun v a => by simp, 1, one_pos, ?_⟩
  · intro v w hl; exact (List.reverse_zipWith hl).symm ▸ rfl
  · intro v w hl
    unfold Spec.inner
    rw [one_mul, ← List.sum_reverse (List.map _ (v.zip w)), ← List.map_reverse]
    congr 2
    simp only [List.zip]
    exact (List.reverse_zipWith hl).symm

/-- A rotation in the plane of the first two coordinates, by the angle with cosine `c` and sine `s`. -/
def turn (c s : ℝ) : List ℝ → List ℝ
  | x :: y :: l => (c * x - s * y) :: (s * x + c * y) :: l
  | l => l

theorem turn_similar {c s : ℝ} (h : c * c + s * s = 1) : Similarity (turn c s) (turn c (-s)) := by
  have hinv : ∀ c s : ℝ, c * c + s * s = 1 → ∀ v, turn c (-s) (turn c s v) = v := by
    intro c s h v
    match v with
    | [] => rfl
    | [x] => rfl
    | x :: y :: l =>
      simp only [turn, List.cons.injEq, and_true]
      constructor
      · linear_combination x * h
      · linear_combination y * h
  refine ⟨?_, hinv c s h, fun v => ?_, ?_, ?_, 1, one_pos, ?_⟩
  · intro v
    match v with
    | [] => rfl
    | [x] => rfl
    | x :: y :: l => rfl
  · have := hinv c (-s) (by linear_combination h) v
    rwa [neg_neg] at this
  · intro v w hl
    match v, w, hl with
    | [], [], _ => rfl
    | [x], [x'], _ => rfl
    | x :: y :: l, x' :: y' :: l', _ =>
      simp only [turn, List.zipWith_cons_cons, List.cons.injEq, and_true]
      constructor <;> ring
  · intro v a
    match v with
    | [] => rfl
    | [x] => rfl
    | x :: y :: l =>
      simp only [turn, List.map_cons, List.cons.injEq, and_true]
      constructor <;> ring
  · intro v w hl
    match v, w, hl with
    | [], [], _ => simp [turn, Spec.inner]
    | [x], [x'], _ => simp [turn]
    | x :: y :: l, x' :: y' :: l', _ =>
      simp only [turn, Spec.inner, List.zip_cons_cons, List.map_cons, List.sum_cons]
      linear_combination (x * x' + y * y') * h

/-- Three numbers as a float64 vector. -/
def v3 (a b c : Int) : List F64 := [F64.ofInt a, F64.ofInt b, F64.ofInt c]

end SymmetryExample

open SymmetryExample in
/-- Beside C135: turned by the angle with cosine 3/5, and measured in a unit seven times smaller. -/
example (tk : Nat → Int) (iv : List ℝ) (cap thr : Int) (os : List (ManagerCall ℝ)) (v : List ℝ) (k : Int) (drain : Bool) :
    asked tk ((scale 7 ∘ turn (3 / 5) (4 / 5)) iv) cap thr knnCos kfnCos
      (os.map (moveCall (scale 7 ∘ turn (3 / 5) (4 / 5)) (turn (3 / 5) (-(4 / 5)) ∘ scale 7⁻¹))) ((scale 7 ∘ turn (3 / 5) (4 / 5)) v) k drain =
      asked tk iv cap thr knnCos kfnCos os v k drain :=
  C135_answers_partial (Similar.comp (turn_similar (by norm_num)) (scale_similar (by norm_num))) tk iv cap thr os v k drain

open SymmetryExample in
/-- Beside C135: what that change of coordinates does to one vector. -/
example : (scale 7 ∘ turn (3 / 5) (4 / 5)) [5, 10, 1] = [-35, 70, 7] := by
  simp only [Function.comp, turn, scale, List.map_cons, List.map_nil]
  norm_num

/-- Beside C135: the order of the coordinates is such a change in any arithmetic, float64 among them. -/
example : Equi (F := F64) List.reverse List.reverse where
  len v := by simp
  left v := by simp
  right v := by simp
  add v w h := (List.reverse_zipWith h).symm
  sub v w h := (List.reverse_zipWith h).symm
  mul v s := by simp
  div v s := by simp

open SymmetryExample in
/-- C135 is refuted in float64, where sums depend on the order of the summands: with two datapoints stored, the nearest one to
(1,1,1) is another one when all vectors are given with their coordinates in reverse order. -/
theorem C135_refuted : ∃ (os : List (ManagerCall F64)) (v : List F64),
    (∃ p, asked (fun _ => 0) (v3 0 0 0) 10 10 knnCos kfnCos os v 1 false 0 = .ok ([[1]], p)) ∧
    ∃ p, asked (fun _ => 0) (v3 0 0 0).reverse 10 10 knnCos kfnCos (os.map (moveCall List.reverse List.reverse)) v.reverse 1 false 0 = .ok ([[2]], p) := by
  refine ⟨[.add ⟨v3 1 (-1) 0, [1], 0, false⟩, .add ⟨v3 1 (2 ^ 53) (-2 ^ 53), [2], 0, false⟩], v3 1 1 1, ?_, ?_⟩
  · obtain ⟨a, p, h, rfl⟩ := exists_of_run (f := id) (b := [[(1 : UInt8)]]) (p := 0) (m := asked (fun _ => 0) (v3 0 0 0) 10 10 knnCos kfnCos
      [.add ⟨v3 1 (-1) 0, [1], 0, false⟩, .add ⟨v3 1 (2 ^ 53) (-2 ^ 53), [2], 0, false⟩] (v3 1 1 1) 1 false) (by decide +kernel)
    exact ⟨p, h⟩
  · obtain ⟨a, p, h, rfl⟩ := exists_of_run (f := id) (b := [[(2 : UInt8)]]) (p := 0) (m := asked (fun _ => 0) (v3 0 0 0).reverse 10 10 knnCos kfnCos
      (List.map (moveCall List.reverse List.reverse) [.add ⟨v3 1 (-1) 0, [1], 0, false⟩, .add ⟨v3 1 (2 ^ 53) (-2 ^ 53), [2], 0, false⟩])
      (v3 1 1 1).reverse 1 false) (by decide +kernel)
    exact ⟨p, h⟩

end Trypo
