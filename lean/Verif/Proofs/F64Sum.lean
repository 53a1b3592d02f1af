import Verif.Proofs.F64Round
import Verif.Model.MathUtils

/-!
# Sums and dot products in float64
-/

namespace Trypo
namespace F64
open Spec

attribute [local irreducible] UNIT TOP

/-- Half of the overflow bound. -/
noncomputable def HALF : ℝ := 2 ^ 1023

theorem half_add : (2 : ℝ) ^ 1024 = HALF + HALF := by unfold HALF; rw [pow_succ, mul_two]
theorem half_ge : 1 ≤ HALF := one_le_pow₀ (by norm_num)

theorem one_add_pow_le (m : Nat) : ∀ {x : ℝ}, 0 ≤ x → m * x ≤ 1 → (1 + x) ^ m ≤ 1 + m * x + (m * x) ^ 2 := by
  induction m with
  | zero => intro x _ _; simp
  | succ m ih =>
    intro x hx h
    have h' : (m : ℝ) * x ≤ 1 := le_trans (by push_cast; nlinarith) h
    have := ih hx h'
    rw [pow_succ]
    push_cast at h ⊢
    have hm : (0 : ℝ) ≤ m := Nat.cast_nonneg m
    have h1 : (m : ℝ) * x * x * (m * x) ≤ (m * x * x) * 1 := mul_le_mul_of_nonneg_left h' (by positivity)
    nlinarith [mul_nonneg hm (mul_nonneg hx hx), mul_le_mul_of_nonneg_right this (by linarith : (0 : ℝ) ≤ 1 + x)]

theorem one_le_pow_u (n : Nat) : 1 ≤ (1 + u) ^ n := one_le_pow₀ (by have := u_pos; linarith)

theorem val_le_of_err {x y e : ℝ} (h : |x - y| ≤ u * |y| + e) : |x| ≤ (1 + u) * |y| + e := by
  have := abs_sub_abs_le_abs_sub x y
  linarith

/-- Left-to-right summation, where the result is finite. -/
theorem sum_err (ts : List F64) : ∀ s, Fin (ts.foldl add s) → Fin s ∧ (∀ t ∈ ts, Fin t) ∧
    |val (ts.foldl add s) - (val s + (ts.map val).sum)| ≤
      ((1 + u) ^ ts.length - 1) * (|val s| + (ts.map (fun t => |val t|)).sum) := by
  induction ts with
  | nil => intro s h; exact ⟨h, by simp, by simp⟩
  | cons t ts ih =>
    intro s h
    obtain ⟨h1, h2, h3⟩ := ih _ h
    obtain ⟨a1, a2, a3⟩ := add_err h1
    refine ⟨a1, by simpa [a2] using h2, ?_⟩
    have hu := u_pos
    have hp := one_le_pow_u ts.length
    have hv := val_le_of_err (x := val (add s t)) (y := val s + val t) (e := 0) (by simpa using a3)
    have habs := abs_add_le (val s) (val t)
    simp only [List.foldl_cons, List.map_cons, List.sum_cons, List.length_cons, pow_succ]
    have hT : 0 ≤ (ts.map (fun t => |val t|)).sum := List.sum_nonneg (by simp)
    generalize val (ts.foldl add (add s t)) = R at *
    generalize val (add s t) = s1 at *
    generalize (ts.map val).sum = T at *
    generalize (ts.map (fun t => |val t|)).sum = A at *
    generalize (1 + u) ^ ts.length = P at *
    have e : R - (val s + (val t + T)) = (R - (s1 + T)) + (s1 - (val s + val t)) := by ring
    rw [e]
    refine (abs_add_le _ _).trans ?_
    have hP : 0 ≤ P - 1 := by linarith
    calc _ ≤ (P - 1) * (|s1| + A) + u * |val s + val t| := add_le_add h3 a3
      _ ≤ (P - 1) * ((1 + u) * |val s + val t| + A) + u * |val s + val t| := by
          have := mul_le_mul_of_nonneg_left (show |s1| + A ≤ (1 + u) * |val s + val t| + A by linarith) hP
          linarith
      _ = (P * (1 + u) - 1) * |val s + val t| + (P - 1) * A := by ring
      _ ≤ (P * (1 + u) - 1) * (|val s| + |val t|) + (P * (1 + u) - 1) * A := by
          refine add_le_add (mul_le_mul_of_nonneg_left habs (by nlinarith)) (mul_le_mul_of_nonneg_right (by nlinarith) hT)
      _ = _ := by ring

/-- Left-to-right summation is finite where the magnitudes are far from overflow. -/
theorem sum_fin (ts : List F64) : ∀ s, Fin s → (∀ t ∈ ts, Fin t) →
    (1 + u) ^ ts.length * (|val s| + (ts.map (fun t => |val t|)).sum) < HALF → Fin (ts.foldl add s) := by
  induction ts with
  | nil => intro s h _ _; exact h
  | cons t ts ih =>
    intro s hs ht h
    have hu := u_pos
    have hu1 := u_lt
    have hη := η_lt
    have hp := one_le_pow_u ts.length
    have habs := abs_add_le (val s) (val t)
    have hT : 0 ≤ (ts.map (fun t => |val t|)).sum := List.sum_nonneg (by simp)
    simp only [List.map_cons, List.sum_cons, List.length_cons, pow_succ] at h
    have h1 : |val s| + |val t| < HALF := by
      have : 1 * (|val s| + (|val t| + (ts.map (fun t => |val t|)).sum)) ≤ (1 + u) ^ ts.length * (1 + u) * (|val s| + (|val t| + (ts.map (fun t => |val t|)).sum)) :=
        mul_le_mul_of_nonneg_right (by nlinarith) (by positivity)
      linarith
    have h2 : (1 + u) * (|val s| + |val t|) < HALF := by
      have : (1 : ℝ) * (1 + u) * (|val s| + |val t|) ≤ (1 + u) ^ ts.length * (1 + u) * (|val s| + (|val t| + (ts.map (fun t => |val t|)).sum)) :=
        mul_le_mul (mul_le_mul_of_nonneg_right hp (by linarith)) (by linarith) (by positivity) (by positivity)
      linarith
    have hf : Fin (add s t) := by
      refine add_fin hs (ht t (by simp)) ?_
      have h4 := half_ge
      have h5 : |val s + val t| * (1 + u) ≤ (1 + u) * (|val s| + |val t|) := by
        rw [mul_comm]; exact mul_le_mul_of_nonneg_left habs (by linarith)
      rw [half_add]; linarith
    refine ih _ hf (fun t h => ht t (by simp [h])) ?_
    obtain ⟨_, _, a3⟩ := add_err hf
    have hv := val_le_of_err (x := val (add s t)) (y := val s + val t) (e := 0) (by simpa using a3)
    refine lt_of_le_of_lt ?_ h
    rw [mul_assoc]
    refine mul_le_mul_of_nonneg_left ?_ (by positivity)
    nlinarith [abs_nonneg (val s + val t)]

theorem foldl_dot (l : List (F64 × F64)) : ∀ s, l.foldl (fun r p => add r (mul p.1 p.2)) s = (l.map (fun p => mul p.1 p.2)).foldl add s := by
  induction l with
  | nil => intro s; rfl
  | cons p l ih => intro s; exact ih _

/-- Sum of the products of the magnitudes. -/
noncomputable def absDot (l : List (F64 × F64)) : ℝ := (l.map (fun p => |val p.1 * val p.2|)).sum

theorem sum_map_le {α : Type} {f g : α → ℝ} {l : List α} (h : ∀ x ∈ l, f x ≤ g x) : (l.map f).sum ≤ (l.map g).sum := by
  induction l with
  | nil => simp
  | cons a l ih =>
    simp only [List.map_cons, List.sum_cons]
    exact add_le_add (h a (by simp)) (ih (fun x hx => h x (by simp [hx])))

theorem abs_sum_sub {α : Type} {f g h : α → ℝ} {l : List α} (hh : ∀ x ∈ l, |f x - g x| ≤ h x) :
    |(l.map f).sum - (l.map g).sum| ≤ (l.map h).sum := by
  induction l with
  | nil => simp
  | cons a l ih =>
    simp only [List.map_cons, List.sum_cons]
    have := ih (fun x hx => hh x (by simp [hx]))
    have h1 := hh a (by simp)
    have e : f a + (l.map f).sum - (g a + (l.map g).sum) = (f a - g a) + ((l.map f).sum - (l.map g).sum) := by ring
    rw [e]
    exact (abs_add_le _ _).trans (add_le_add h1 this)

theorem sum_affine {α : Type} (f : α → ℝ) (a b : ℝ) (l : List α) : (l.map (fun x => a * f x + b)).sum = a * (l.map f).sum + l.length * b := by
  induction l with
  | nil => simp
  | cons x l ih => simp only [List.map_cons, List.sum_cons, ih, List.length_cons]; push_cast; ring

theorem absDot_nonneg (l : List (F64 × F64)) : 0 ≤ absDot l :=
  List.sum_nonneg (by intro x hx; obtain ⟨p, _, rfl⟩ := List.mem_map.1 hx; exact abs_nonneg _)

/-- Dot product, where the result is finite. -/
theorem dot_err (l : List (F64 × F64)) (h : Fin (l.foldl (fun r p => add r (mul p.1 p.2)) (fin false 0))) :
    (∀ p ∈ l, Fin p.1 ∧ Fin p.2) ∧
    |val (l.foldl (fun r p => add r (mul p.1 p.2)) (fin false 0)) - (l.map (fun p => val p.1 * val p.2)).sum| ≤
      ((1 + u) ^ (l.length + 1) - 1) * absDot l + (1 + u) ^ l.length * (l.length * η) := by
  rw [foldl_dot] at h ⊢
  obtain ⟨_, h2, h3⟩ := sum_err _ _ h
  have hm : ∀ p ∈ l, Fin p.1 ∧ Fin p.2 ∧ |val (mul p.1 p.2) - val p.1 * val p.2| ≤ u * |val p.1 * val p.2| + η := by
    intro p hp
    exact mul_err (h2 _ (List.mem_map_of_mem hp))
  refine ⟨fun p hp => ⟨(hm p hp).1, (hm p hp).2.1⟩, ?_⟩
  have hz : val (fin false 0) = 0 := by rw [val_fin]; simp
  rw [hz] at h3
  simp only [zero_add, abs_zero, List.map_map, List.length_map] at h3
  have hp := one_le_pow_u l.length
  have e1 : |(l.map (fun p => val (mul p.1 p.2))).sum - (l.map (fun p => val p.1 * val p.2)).sum| ≤ u * absDot l + l.length * η := by
    rw [absDot, ← sum_affine]
    exact abs_sum_sub (fun p hp => (hm p hp).2.2)
  have e2 : (l.map (fun p => |val (mul p.1 p.2)|)).sum ≤ (1 + u) * absDot l + l.length * η := by
    rw [absDot, ← sum_affine]
    exact sum_map_le (fun p hp => val_le_of_err (hm p hp).2.2)
  have h3' : |val ((l.map (fun p => mul p.1 p.2)).foldl add (fin false 0)) - (l.map (fun p => val (mul p.1 p.2))).sum| ≤
      ((1 + u) ^ l.length - 1) * (l.map (fun p => |val (mul p.1 p.2)|)).sum := h3
  generalize val ((l.map (fun p => mul p.1 p.2)).foldl add (fin false 0)) = R at *
  generalize (l.map (fun p => val (mul p.1 p.2))).sum = S at *
  generalize (l.map (fun p => val p.1 * val p.2)).sum = X at *
  have e : R - X = (R - S) + (S - X) := by ring
  rw [e]
  refine (abs_add_le _ _).trans ?_
  calc _ ≤ ((1 + u) ^ l.length - 1) * ((1 + u) * absDot l + l.length * η) + (u * absDot l + l.length * η) :=
        add_le_add (h3'.trans (mul_le_mul_of_nonneg_left e2 (by linarith))) e1
    _ = _ := by rw [pow_succ]; ring

theorem dot_fin (l : List (F64 × F64)) (h : ∀ p ∈ l, Fin p.1 ∧ Fin p.2)
    (hb : (1 + u) ^ (l.length + 1) * absDot l + (1 + u) ^ l.length * (l.length * η) < HALF) :
    Fin (l.foldl (fun r p => add r (mul p.1 p.2)) (fin false 0)) := by
  rw [foldl_dot]
  have hp := one_le_pow_u l.length
  have hu := u_pos
  have hη := η_pos
  have hη1 := η_lt
  have hA := absDot_nonneg l
  have h4 := half_ge
  have hlen : (0 : ℝ) ≤ l.length := Nat.cast_nonneg _
  have hf : ∀ p ∈ l, Fin (mul p.1 p.2) := by
    intro p hpl
    refine mul_fin (h p hpl).1 (h p hpl).2 ?_
    have : |val p.1 * val p.2| ≤ absDot l := by
      unfold absDot
      exact List.single_le_sum (by intro x hx; obtain ⟨p, _, rfl⟩ := List.mem_map.1 hx; exact abs_nonneg _) _ (List.mem_map_of_mem (f := fun p => |val p.1 * val p.2|) hpl)
    have h5 : absDot l * (1 + u) ≤ (1 + u) ^ (l.length + 1) * absDot l := by
      rw [pow_succ, mul_comm]
      refine mul_le_mul_of_nonneg_right ?_ hA
      nlinarith
    have h6 : 0 ≤ (1 + u) ^ l.length * (l.length * η) := by positivity
    have h7 : |val p.1 * val p.2| * (1 + u) ≤ absDot l * (1 + u) := mul_le_mul_of_nonneg_right this (by linarith)
    rw [half_add]
    linarith
  have hz : val (fin false 0) = 0 := by rw [val_fin]; simp
  refine sum_fin _ _ ⟨_, _, rfl⟩ (by intro t ht; obtain ⟨p, hp, rfl⟩ := List.mem_map.1 ht; exact hf p hp) ?_
  rw [hz]
  simp only [zero_add, abs_zero, List.map_map, List.length_map]
  have e2 : (l.map (fun p => |val (mul p.1 p.2)|)).sum ≤ (1 + u) * absDot l + l.length * η := by
    rw [absDot, ← sum_affine]
    exact sum_map_le (fun p hp => val_le_of_err (mul_err (hf p hp)).2.2)
  refine lt_of_le_of_lt (mul_le_mul_of_nonneg_left e2 (by positivity)) (lt_of_le_of_lt (le_of_eq ?_) hb)
  rw [pow_succ]; ring

end F64
end Trypo
