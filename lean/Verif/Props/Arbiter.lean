import Verif.Model.Arbiter

/-!
# The helpers of the arbiter: C56
-/

namespace Trypo
open Arbiter

variable {A E S : Type}

/-- C56, `CheckAll`. For every map and every order of its iteration: the error is nil exactly if all errors of the map are, and
then the address is the empty one; otherwise address and error are an entry of the map. -/
theorem C56_checkAll (empty : A) (m entries : List (A × Option E)) (h : entries.Perm m) :
    ((checkAll empty entries).2 = none ↔ ∀ q ∈ m, q.2 = none) ∧
    ((checkAll empty entries).2 = none → (checkAll empty entries).1 = empty) ∧
    ((checkAll empty entries).2 ≠ none → checkAll empty entries ∈ m) := by
  have key : ∀ l : List (A × Option E), ((checkAll empty l).2 = none ↔ ∀ q ∈ l, q.2 = none) ∧
      ((checkAll empty l).2 = none → (checkAll empty l).1 = empty) ∧ ((checkAll empty l).2 ≠ none → checkAll empty l ∈ l) := by
    intro l
    induction l with
    | nil => simp [checkAll]
    | cons q l ih =>
      obtain ⟨a, err⟩ := q
      cases err with
      | some e => simp [checkAll]
      | none =>
        simp only [checkAll]
        refine ⟨by rw [ih.1]; simp, ih.2.1, fun hn => List.mem_cons_of_mem _ (ih.2.2 hn)⟩
  obtain ⟨h1, h2, h3⟩ := key entries
  exact ⟨h1.trans ⟨fun hx q hq => hx q (h.mem_iff.2 hq), fun hx q hq => hx q (h.mem_iff.1 hq)⟩, h2, fun hn => h.subset (h3 hn)⟩

/-- C56, `UniformStatus`. For every map and every order of its iteration: true exactly if all codes equal the given one. -/
theorem C56_uniformStatus [DecidableEq S] (sc : S) (m entries : List (A × S)) (h : entries.Perm m) :
    uniformStatus sc entries = true ↔ ∀ q ∈ m, q.2 = sc := by
  have key : ∀ l : List (A × S), uniformStatus sc l = true ↔ ∀ q ∈ l, q.2 = sc := by
    intro l
    induction l with
    | nil => simp [uniformStatus]
    | cons q l ih =>
      obtain ⟨a, s⟩ := q
      by_cases hs : s = sc
      · simp [uniformStatus, hs, ih]
      · simp [uniformStatus, hs]
  rw [key]
  exact ⟨fun hx q hq => hx q (h.mem_iff.2 hq), fun hx q hq => hx q (h.mem_iff.1 hq)⟩

example : checkAll 0 [(1, none), (2, some "down"), (3, some "gone")] = (2, some "down") ∧
    checkAll 0 [(3, some "gone"), (2, some "down"), (1, none)] = (3, some "gone") ∧
    checkAll 0 [(1, none), ((2 : Nat), (none : Option String))] = (0, none) := by decide

example : uniformStatus 5 [(1, 5), (2, 5)] = true ∧ uniformStatus 5 [(1, 5), (2, 6)] = false ∧
    uniformStatus 5 ([] : List (Nat × Nat)) = true := by decide

end Trypo
