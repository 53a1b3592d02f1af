import Verif.Proofs.KNN2
import Verif.Spec.Ties
import Verif.Spec.ManagerHistory
import Verif.Props.MathUtils

/-!
# C111: ties in a search
-/

set_option linter.unusedSectionVars false

namespace Trypo
open GoFloat Spec

section
variable {F : Type} [GoFloat F] [LawfulCmp F]

/-- C111, what holds: whatever `k` is, the first index in the answer is the earliest of the best candidates. Every earlier candidate is worse. -/
theorem C111_first_partial (t : List F) (dist : List F → List F → Option F) (asc : Bool) {k : Int} {pool : List (List F)} {j : Nat} {res : List Nat}
    (h : knnBrute t pool k asc dist = .ok (j :: res)) {s : F} (hs : HasScore (dist t) asc pool j s) {i : Nat} (hi : i < j) {s' : F}
    (hs' : HasScore (dist t) asc pool i s') : Better asc s s' :=
  knnBrute_first t dist asc h hs hi hs'

/-- C111 holds for searches for one. -/
theorem C111_one_partial (t : List F) (dist : List F → List F → Option F) (asc : Bool) {pool : List (List F)} {res : List Nat}
    (h : knnBrute t pool 1 asc dist = .ok res) : PrefersEarlier (dist t) asc pool res := by
  intro i j s s' hi hs hs' ht hj
  obtain ⟨res', h1, h2⟩ := knnBrute_kbest t dist asc 1 pool
  have h1 : knnBrute t pool 1 asc dist = .ok res' := h1
  rw [h] at h1
  cases h1
  have hl := h2.length
  match res, hj, hl with
  | [x], hj, _ =>
    have : j = x := by simpa using hj
    subst this
    exact absurd (C111_first_partial t dist asc h hs' hi hs) ht.2
  | x :: y :: l, _, hl => simp at hl; omega

end

/-- C111 is false of the code: of (0,1), (0,2) and (1,0), all but the last equally far from (1,0), the two nearest are the last and the second: the
first was pushed out of the first slot and does not push out what is in the second, since it is not better. -/
theorem C111_refuted :
    knnCos [F64.ofInt 1, .ofInt 0] [[.ofInt 0, .ofInt 1], [.ofInt 0, .ofInt 2], [.ofInt 1, .ofInt 0]] 2 = .ok [2, 1] ∧
    ¬ PrefersEarlier (cosineSimilarity [F64.ofInt 1, .ofInt 0]) false [[.ofInt 0, .ofInt 1], [.ofInt 0, .ofInt 2], [.ofInt 1, .ofInt 0]] [2, 1] := by
  refine ⟨by decide +kernel, fun h => ?_⟩
  have := h 0 1 (.ofInt 0) (.ofInt 0) (by decide) ⟨_, rfl, by decide +kernel, by decide +kernel⟩ ⟨_, rfl, by decide +kernel, by decide +kernel⟩
    ⟨by decide +kernel, by decide +kernel⟩ (by simp)
  revert this
  decide

/-- The same with the other three searches. -/
theorem C111_refuted_others :
    kfnCos [F64.ofInt 1, .ofInt 0] [[.ofInt 0, .ofInt 1], [.ofInt 0, .ofInt 2], [.ofInt (-1), .ofInt 0]] 2 = .ok [2, 1] ∧
    knnEuc [F64.ofInt 0] [[.ofInt 2], [.ofInt (-2)], [.ofInt 1]] 2 = .ok [2, 1] ∧
    kfnEuc [F64.ofInt 0] [[.ofInt 1], [.ofInt (-1)], [.ofInt 2]] 2 = .ok [2, 1] := by
  refine ⟨by decide +kernel, by decide +kernel, by decide +kernel⟩

/-! ### Examples -/

/-- C111: without a better one later, ties are in order; the first is the first of the best. -/
example : knnCos [F64.ofInt 1, .ofInt 0] [[.ofInt 0, .ofInt 1], [.ofInt 0, .ofInt 2], [.ofInt 0, .ofInt 3]] 2 = .ok [0, 1] ∧
    knnCos [F64.ofInt 1, .ofInt 0] [[.ofInt 0, .ofInt 1], [.ofInt 1, .ofInt 0], [.ofInt 2, .ofInt 0]] 3 = .ok [1, 2, 0] ∧
    knnCos [F64.ofInt 1, .ofInt 0] [[.ofInt 0, .ofInt 1], [.ofInt 1, .ofInt 0], [.ofInt 2, .ofInt 0]] 1 = .ok [1] := by
  refine ⟨by decide +kernel, by decide +kernel, by decide +kernel⟩

end Trypo
