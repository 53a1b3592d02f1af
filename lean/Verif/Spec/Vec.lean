import Mathlib.Analysis.Real.Sqrt

/-!
# Specification: vectors over ℝ

Textbook notions, independent of the model.
-/

namespace Trypo.Spec

/-- j-th component (0 outside the vector). -/
def comp (j : Nat) (v : List ℝ) : ℝ := v.getD j 0

/-- Sum of the j-th components. -/
def compSum (j : Nat) (vs : List (List ℝ)) : ℝ := (vs.map (comp j)).sum

/-- `m` is the arithmetic mean of the vectors `vs` (of dimension `d`). -/
def IsMean (m : List ℝ) (vs : List (List ℝ)) : Prop :=
  ∀ j, comp j m * (vs.length : ℝ) = compSum j vs

/-- Sum of absolute component differences (the L1 distance). -/
def l1 (v w : List ℝ) : ℝ := ((v.zip w).map (fun p => |p.1 - p.2|)).sum

/-- Sum of squared component differences. -/
def sqDist (v w : List ℝ) : ℝ := ((v.zip w).map (fun p => (p.1 - p.2) ^ 2)).sum

/-- Inner product. -/
def inner (v w : List ℝ) : ℝ := ((v.zip w).map (fun p => p.1 * p.2)).sum

/-- Euclidean norm. -/
noncomputable def len (v : List ℝ) : ℝ := Real.sqrt (inner v v)

/-- A vector with a non-zero component. -/
def NonZero (v : List ℝ) : Prop := ∃ x ∈ v, x ≠ 0

end Trypo.Spec
