import Verif.Props.Arrays
import Verif.Props.Slice

/-!
# C73, C100: what the operations on slices mean

The laws of the Go specification for index expressions, assignments, slice expressions and `append`, for slices anywhere in an array.
-/

namespace Trypo

/-- C100: an assignment `s[i] = x` changes this element and no other cell of any array; it panics exactly for indexes out of range. -/
theorem C100_store {α : Type} (m : Arrays.Heap α) (s : Slice) (i : Nat) (x : α) (p : Nat) :
    (i < (Arrays.elems m s).length → ∃ m', Arrays.put s i x m p = .ok (((), m'), p) ∧ Arrays.elems m' s = (Arrays.elems m s).set i x ∧
      ∀ a j, (a ≠ s.arr ∨ j ≠ s.off + i) → ((m'[a]?).getD [])[j]? = ((m[a]?).getD [])[j]?) ∧
    ((Arrays.elems m s).length ≤ i → Arrays.put s i x m p = .error .index) := by
  constructor
  · intro h
    unfold Arrays.put
    rw [if_pos h]
    refine ⟨_, rfl, ?_, fun a j haj => ?_⟩
    · have harr : s.arr < m.length := by
        by_contra hn
        simp [Arrays.elems, List.getElem?_eq_none (Nat.not_lt.1 hn)] at h
      have hlen : i < s.len := by
        simp only [Arrays.elems, List.length_take, List.length_drop] at h
        omega
      unfold Arrays.elems
      rw [List.getElem?_set_self (by simpa using harr)]
      simp only [Option.getD_some]
      rw [List.drop_set, if_neg (by omega), Nat.add_sub_cancel_left, List.take_set]
    · rcases eq_or_ne a s.arr with rfl | ha
      · have hj : j ≠ s.off + i := haj.resolve_left (fun h => h rfl)
        rcases Nat.lt_or_ge s.arr m.length with harr | harr
        · rw [List.getElem?_set_self (by simpa using harr)]
          simp only [Option.getD_some]
          rw [List.getElem?_set_ne (fun h => hj h.symm)]
        · rw [List.set_eq_of_length_le harr]
      · rw [List.getElem?_set_ne (fun h => ha h.symm)]
  · intro h
    unfold Arrays.put
    rw [if_neg (by omega)]

/-- C100: an assignment through a window `[2, 3]` into `[1, 2, 3, 4]`. -/
example : Arrays.put (α := Nat) ⟨0, 1, 2, 3⟩ 1 9 [[1, 2, 3, 4], [5]] 0 = .ok (((), [[1, 2, 9, 4], [5]]), 0) ∧
    Arrays.put (α := Nat) ⟨0, 1, 2, 3⟩ 2 9 [[1, 2, 3, 4], [5]] 0 = .error .index := by decide

namespace Spec

/-- A slice that lies in its array. -/
structure Inside {F : Type} (m : Mem F) (s : Slice) : Prop where
  len : s.len ≤ s.cap
  room : s.off + s.cap ≤ ((m[s.arr]?).getD []).length

end Spec
open Spec

variable {F : Type}

theorem view_length {m : Mem F} {s : Slice} (h : Inside m s) : (SGo.view m s).length = s.len := by
  have := h.len
  have := h.room
  simp only [SGo.view, List.length_take, List.length_drop]
  omega

/-- C73: `s[:i]` and `s[i:]` are windows into the same array; they panic exactly beyond the capacity and beyond the length. -/
theorem C73_reslice (m : Mem F) (s : Slice) (h : Inside m s) (i : Nat) (p : Nat) :
    (i ≤ s.len → SGo.sliceTo s i m p = .ok (({ s with len := i }, m), p) ∧ SGo.view m { s with len := i } = (SGo.view m s).take i) ∧
    (s.len ≤ i → i ≤ s.cap → SGo.sliceTo s i m p = .ok (({ s with len := i }, m), p) ∧
      SGo.view m { s with len := i } = SGo.view m s ++ (SGo.spare m s).take (i - s.len)) ∧
    (s.cap < i → SGo.sliceTo s i m p = .error .index) ∧
    (i ≤ s.len → ∃ s', SGo.sliceFrom s i m p = .ok ((s', m), p) ∧ SGo.view m s' = (SGo.view m s).drop i ∧ SGo.spare m s' = SGo.spare m s ∧ Inside m s') ∧
    (s.len < i → SGo.sliceFrom s i m p = .error .index) := by
  have h1 := h.len
  have h2 := h.room
  refine ⟨fun hi => ⟨?_, ?_⟩, fun hi hi' => ⟨?_, ?_⟩, fun hi => ?_, fun hi => ?_, fun hi => ?_⟩
  · unfold SGo.sliceTo; rw [if_pos (by omega)]; rfl
  · simp only [SGo.view, List.take_take, Nat.min_eq_left hi]
  · unfold SGo.sliceTo; rw [if_pos (by omega)]; rfl
  · simp only [SGo.view, SGo.spare]
    generalize ((m[s.arr]?).getD []).drop s.off = l
    rw [List.take_drop, List.take_take, show min (s.len + (i - s.len)) s.cap = i by omega]
    conv_lhs => rw [← List.take_append_drop s.len (List.take i _)]
    rw [List.take_take, Nat.min_eq_left hi]
  · unfold SGo.sliceTo; rw [if_neg (by omega)]; rfl
  · refine ⟨⟨s.arr, s.off + i, s.len - i, s.cap - i⟩, ?_, ?_, ?_, ⟨?_, ?_⟩⟩
    · unfold SGo.sliceFrom; rw [if_pos hi]; rfl
    · simp only [SGo.view]
      rw [List.drop_take, List.drop_drop]
    · simp only [SGo.spare]
      rw [← List.drop_drop, ← List.drop_take, List.drop_drop, Nat.add_sub_cancel' hi]
    · show s.len - i ≤ s.cap - i; omega
    · show s.off + i + (s.cap - i) ≤ ((m[s.arr]?).getD []).length; omega
  · unfold SGo.sliceFrom; rw [if_neg (by omega)]; rfl

/-- C73: `append(s, xs...)`. The result has the old elements and then `xs`. If they fit into the capacity, it is in the same array, whose cells
from the end of `s` are overwritten and no others; if not, no existing array changes. -/
theorem C73_append (grow : Nat → Nat → Nat) (m : Mem F) (s : Slice) (h : Inside m s) (harr : s.arr < m.length) (xs : List (DataPoint F)) (p : Nat) :
    ∃ s' m', SGo.append grow s xs m p = .ok ((s', m'), p) ∧ SGo.view m' s' = SGo.view m s ++ xs ∧ Inside m' s' ∧
      (s.len + xs.length ≤ s.cap → s' = { s with len := s.len + xs.length } ∧
        ∀ a j, (a ≠ s.arr ∨ j < s.off + s.len ∨ s.off + s.len + xs.length ≤ j) → ((m'[a]?).getD [])[j]? = ((m[a]?).getD [])[j]?) ∧
      (s.cap < s.len + xs.length → s'.arr = m.length ∧ s.len + xs.length ≤ s'.cap ∧ ∀ a < m.length, m'[a]? = m[a]?) := by
  have h1 := h.len
  have h2 := h.room
  have hv := view_length h
  unfold SGo.append
  by_cases hc : s.len + xs.length ≤ s.cap
  · simp only [if_pos hc]
    refine ⟨_, _, rfl, ?_, ⟨hc, ?_⟩, fun _ => ⟨rfl, fun a j haj => ?_⟩, fun h => by omega⟩
    · simp only [SGo.view, SGo.writeAt]
      rw [List.getElem?_set_self (by simpa using harr)]
      simp only [Option.getD_some]
      generalize (m[s.arr]?).getD [] = l at h2
      rw [List.append_assoc, List.drop_append_of_le_length (by rw [List.length_take]; omega), List.drop_take, Nat.add_sub_cancel_left,
        ← List.append_assoc, List.take_append_of_le_length (by simp; omega), List.take_of_length_le (by simp)]
    · simp only [SGo.writeAt]
      rw [List.getElem?_set_self (by simpa using harr)]
      simp only [Option.getD_some, List.length_append, List.length_take, List.length_drop]
      omega
    · rcases eq_or_ne a s.arr with rfl | ha
      · have hj := haj.resolve_left (fun h => h rfl)
        rw [List.getElem?_set_self (by simpa using harr)]
        simp only [Option.getD_some, SGo.writeAt]
        generalize (m[s.arr]?).getD [] = l at h2
        rcases hj with hj | hj
        · rw [List.append_assoc, List.getElem?_append_left (by rw [List.length_take]; omega), List.getElem?_take_of_lt hj]
        · rw [List.getElem?_append_right (by simp only [List.length_append, List.length_take]; omega), List.getElem?_drop]
          congr 1
          simp only [List.length_append, List.length_take]
          omega
      · rw [List.getElem?_set_ne (fun h => ha h.symm)]
  · simp only [if_neg hc]
    refine ⟨_, _, rfl, ?_, ⟨Nat.le_max_left _ _, ?_⟩, fun h => by omega, fun _ => ⟨rfl, Nat.le_max_left _ _, fun a ha => ?_⟩⟩
    · simp only [SGo.view, List.getElem?_concat_length, Option.getD_some, List.drop_zero]
      rw [List.take_append_of_le_length, List.take_of_length_le]
      · simp only [SGo.view] at hv
        rw [List.length_append, hv]
      · simp only [SGo.view] at hv
        rw [List.length_append, hv]
    · simp only [List.getElem?_concat_length, Option.getD_some, List.length_append, hv, List.length_replicate]
      omega
    · rw [List.getElem?_append_left ha]

/-- C73: appending to the window `[b]` of `[a, b, c]`, with a capacity of 2, overwrites `c`. -/
example (a b c d : DataPoint F) : SGo.append goGrow ⟨0, 1, 1, 2⟩ [d] [[a, b, c]] 0 = .ok ((⟨0, 1, 2, 2⟩, [[a, b, d]]), 0) := rfl

/-- C73: with a capacity of 1 it goes into a new array. -/
example (a b c d : DataPoint F) : SGo.append goGrow ⟨0, 1, 1, 1⟩ [d] [[a, b, c]] 0 =
    .ok ((⟨1, 0, 2, 2⟩, [[a, b, c], [b, d]]), 0) := rfl

/-- C73: `s[1:]` of a slice of length 2 and capacity 3. -/
example (m : Mem F) : SGo.sliceFrom ⟨0, 1, 2, 3⟩ 1 m 0 = .ok ((⟨0, 2, 1, 2⟩, m), 0) := rfl

end Trypo
