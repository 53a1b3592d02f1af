import Verif.Spec.Float
import Verif.Spec.ManagerHistory

/-!
# Specification: vectors of positive numbers
-/

namespace Trypo.Spec
open F64

/-- Bounds on positive numbers, neither extremely small nor extremely large. -/
structure Range (lo hi : ℝ) : Prop where
  low : 1 / 2 ^ 479 ≤ lo
  le : lo ≤ hi
  high : hi ≤ 2 ^ 499

/-- Finite components between `lo` and `hi`. -/
def Ranged (lo hi : ℝ) (v : List F64) : Prop := ∀ x ∈ v, Fin x ∧ lo ≤ val x ∧ val x ≤ hi

/-- Datapoints that are added have components between `lo` and `hi`. -/
def ManagerCall.ranged (lo hi : ℝ) : ManagerCall F64 → Prop
  | .add d => Ranged lo hi d.vec
  | _ => True

/-- Datapoints that are added have finite components of magnitude at most `M`. -/
def ManagerCall.within (M : ℝ) : ManagerCall F64 → Prop
  | .add d => ∀ x ∈ d.vec, Fin x ∧ |val x| ≤ M
  | _ => True

/-- Not a call of `MemTrim`. -/
def ManagerCall.notTrim {F : Type} : ManagerCall F → Prop
  | .memTrim => False
  | _ => True

end Trypo.Spec
