import Verif.Model.Float
import Mathlib.Analysis.Real.Sqrt

/-!
# Exact arithmetic

`ℝ` as a scalar type: the idealisation used by the statements "in exact arithmetic". Division by zero in `ℝ` is `0`
(in Go it is NaN or an infinity); no theorem uses a quotient whose divisor can be zero.
-/

namespace Trypo

noncomputable instance : GoFloat ℝ where
  zero := 0
  add := (· + ·)
  sub := (· - ·)
  mul := (· * ·)
  div := (· / ·)
  neg := fun x => -x
  sqrt := Real.sqrt
  lt := fun a b => @decide (a < b) (Classical.propDecidable _)
  eq := fun a b => @decide (a = b) (Classical.propDecidable _)
  ofNat := fun n => (n : ℝ)
  maxFloat := 2 ^ 1024 - 2 ^ 971

@[simp] theorem rzero : (GoFloat.zero : ℝ) = 0 := rfl
@[simp] theorem radd (a b : ℝ) : GoFloat.add a b = a + b := rfl
@[simp] theorem rsub (a b : ℝ) : GoFloat.sub a b = a - b := rfl
@[simp] theorem rmul (a b : ℝ) : GoFloat.mul a b = a * b := rfl
@[simp] theorem rdiv (a b : ℝ) : GoFloat.div a b = a / b := rfl
@[simp] theorem rneg (a : ℝ) : GoFloat.neg a = -a := rfl
@[simp] theorem rsqrt (a : ℝ) : GoFloat.sqrt a = Real.sqrt a := rfl
@[simp] theorem rlt (a b : ℝ) : GoFloat.lt a b = true ↔ a < b := by simp [GoFloat.lt]
@[simp] theorem req (a b : ℝ) : GoFloat.eq a b = true ↔ a = b := by simp [GoFloat.eq]
@[simp] theorem rofNat (n : Nat) : (GoFloat.ofNat n : ℝ) = (n : ℝ) := rfl
theorem rmaxFloat : (GoFloat.maxFloat : ℝ) = 2 ^ 1024 - 2 ^ 971 := rfl

instance : LawfulCmp ℝ where
  lt_irrefl a := by rw [Bool.eq_false_iff]; simp
  lt_trans a b c := by simp only [rlt]; exact lt_trans
  lt_num_left a b := by simp
  lt_num_right a b := by simp
  lt_connected a b c h _ := by
    simp only [rlt] at *
    rcases lt_or_ge a c with h1 | h1
    · exact Or.inl h1
    · exact Or.inr (lt_of_le_of_lt h1 h)
  eq_iff a b := by
    simp only [Bool.eq_false_iff, ne_eq, rlt, req, true_and, not_lt]
    constructor
    · rintro rfl; simp
    · rintro ⟨h1, h2⟩; exact le_antisymm h2 h1

end Trypo
