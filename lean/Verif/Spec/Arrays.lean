import Verif.Model.Arrays

/-!
# Specification: what a function may do to arrays
-/

namespace Trypo.Spec

open Trypo.Arrays

variable {α : Type}

/-- The slice lies within its array. -/
def Within (m : Heap α) (s : Slice) : Prop := ∃ a, m[s.arr]? = some a ∧ s.off + s.len ≤ a.length

/-- Nothing that was there has been written to. -/
def Untouched (m m' : Heap α) : Prop := ∀ (i : Nat) (a : List α), m[i]? = some a → m'[i]? = some a

/-- The slice `s` holds `l`, in an array that did not exist before; everything that existed is as it was. -/
def NewSlice (m m' : Heap α) (s : Slice) (l : List α) : Prop :=
  Untouched m m' ∧ m[s.arr]? = none ∧ Within m' s ∧ elems m' s = l

end Trypo.Spec
