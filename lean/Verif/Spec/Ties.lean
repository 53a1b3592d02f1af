import Verif.Spec.Search

/-!
# Specification: ties
-/

namespace Trypo.Spec

variable {F : Type} [GoFloat F]

/-- Two scores of which neither is better. -/
def Tie (asc : Bool) (s t : F) : Prop := ¬ Better asc s t ∧ ¬ Better asc t s

/-- Of two equally good candidates the later one is only chosen after the earlier one. -/
def PrefersEarlier (dist : List F → Option F) (asc : Bool) (pool : List (List F)) (res : List Nat) : Prop :=
  ∀ (i j : Nat) (s t : F), i < j → HasScore dist asc pool i s → HasScore dist asc pool j t → Tie asc s t → j ∈ res → [i, j].Sublist res

end Trypo.Spec
