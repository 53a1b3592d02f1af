import Mathlib.Data.List.Perm.Basic

/-!
# A tactic for permutations of concatenations, by counting
-/

namespace Trypo

/-- Prove a permutation of lists built with `++` and `::` from the given permutations (or equations, as `.of_eq`). -/
macro "permc" "[" hs:term,* "]" : tactic => do
  let hs := hs.getElems
  `(tactic| (classical
             refine List.perm_iff_count.2 (fun a => ?_)
             $[have := List.Perm.count_eq $hs a]*
             simp only [List.count_append, List.count_cons, List.count_nil, List.count_reverse] at *
             omega))

example (a b c d : List Nat) (x : Nat) (h : (a ++ b).Perm (c ++ [x])) (h' : (x :: d).Perm b) :
    (d ++ a).Perm c := by
  permc [h, h']

end Trypo
