import Verif.Proofs.SliceWorld
import Verif.Proofs.Centroid2

/-!
# What `MemTrim` leaves of the capacity
-/

namespace Trypo
open GoFloat SGo SCentroid Spec

set_option linter.unusedSectionVars false

variable {F : Type}

namespace SGo

/-- The abstract program really ended with the value it is compared at. -/
theorem Refines.outcome {α β : Type} {m : Mem F} {x : SGo F α} {y : Go β} {R : Mem F → α → β → Prop} (h : Refines m x y R) :
    Refines m x y (fun m' a b => R m' a b ∧ ∃ p p', y p = .ok (b, p')) := by
  intro p
  have := h p
  cases e : y p with
  | error e' => rw [e] at this; exact this
  | ok r =>
    rw [e] at this
    obtain ⟨a, m', h1, h2⟩ := this
    exact ⟨a, m', h1, h2, p, r.2, e⟩

/-- A slice on its own array, at most `B` times as large as needed, zero behind its elements. -/
structure Tidy (B : Nat) (m : Mem F) (s : Slice) : Prop where
  cap : s.cap ≤ B * s.len
  off : s.off = 0
  rest : ∃ a, m[s.arr]? = some a ∧ a.length = s.cap ∧ a.drop s.len = List.replicate (s.cap - s.len) zero

theorem Tidy.frame {B : Nat} {m m' : Mem F} {A : List Nat} {s : Slice} (h : Tidy B m s) (hf : Frame m m' A) (ha : s.arr ∉ A) : Tidy B m' s := by
  obtain ⟨a, h1, h2, h3⟩ := h.rest
  exact ⟨h.cap, h.off, a, by rw [hf.same _ (List.getElem?_eq_some_iff.1 h1).1 ha]; exact h1, h2, h3⟩

theorem tidy_append {B : Nat} {grow : Nat → Nat → Nat} (hB : 1 ≤ B) (hg : ∀ c, grow c (c + 1) ≤ B * (c + 1)) {m : Mem F} {s : Slice}
    {l : List (DataPoint F)} (h : Rep m s l) (ht : Tidy B m s) {xs : List (DataPoint F)} (hx : xs.length ≤ 1) {s' : Slice} {m' : Mem F}
    (hd : Det m (SGo.append grow s xs) s' m') : Tidy B m' s' := by
  have hl := h.length
  have hc := h.le
  obtain ⟨a, h1, h2, h3⟩ := ht.rest
  have h4 := hd 0
  have hcap := ht.cap
  unfold SGo.append at h4
  by_cases hn : s.len + xs.length ≤ s.cap
  · simp only [if_pos hn] at h4
    cases h4
    refine ⟨Nat.le_trans hcap (Nat.mul_le_mul_left B (by show s.len ≤ s.len + xs.length; omega)), ht.off, writeAt a (s.off + s.len) xs, ?_, ?_, ?_⟩
    · rw [h1]
      exact List.getElem?_set_self h.lt
    · unfold writeAt
      rw [ht.off]
      simp only [List.length_append, List.length_take, List.length_drop]
      omega
    · unfold writeAt
      rw [ht.off]
      show List.drop (s.len + xs.length) (a.take (0 + s.len) ++ xs ++ a.drop (0 + s.len + xs.length)) = List.replicate (s.cap - (s.len + xs.length)) zero
      rw [List.drop_append_of_le_length (by simp only [List.length_append, List.length_take]; omega),
        List.drop_eq_nil_of_le (by simp only [List.length_append, List.length_take]; omega), List.nil_append, Nat.zero_add, ← List.drop_drop, h3, List.drop_replicate]
      congr 1
      omega
  · simp only [if_neg hn] at h4
    cases h4
    have e1 : xs.length = 1 := by omega
    have e2 : s.len = s.cap := by omega
    refine ⟨?_, rfl, _, List.getElem?_concat_length, ?_, ?_⟩
    · show max (s.len + xs.length) (grow s.cap (s.len + xs.length)) ≤ B * (s.len + xs.length)
      rw [e1, e2]
      refine Nat.max_le.2 ⟨?_, hg _⟩
      exact Nat.le_mul_of_pos_left _ (by omega)
    · rw [h.view]
      simp only [List.length_append, List.length_replicate]
      omega
    · rw [h.view]
      show List.drop (s.len + xs.length) (l ++ xs ++ _) = _
      rw [← hl, ← List.length_append, List.drop_left]

end SGo

namespace SCentroid

variable [GoFloat F]

theorem tidy_memTrimLoop {B : Nat} {grow : Nat → Nat → Nat} (hB : 1 ≤ B) (hg : ∀ c, grow c (c + 1) ≤ B * (c + 1)) (tk : Nat → Int) :
    ∀ (fuel : Nat) {m : Mem F} {c : SCentroid F} {C : Centroid F} {acc : Slice} {l : List (DataPoint F)}, RepC m c C → Rep m acc l →
      c.dps.arr ≠ acc.arr → Tidy B m acc →
    Refines m (memTrimLoop grow tk fuel c acc) (Centroid.memTrimLoop tk fuel C l) (fun m' r _ => Tidy B m' r.1)
  | 0, _, _, _, _, _, _, _, _, ht => Refines.pure ht
  | fuel + 1, m, c, C, acc, l, h, hr, hne, ht => by
    unfold memTrimLoop Centroid.memTrimLoop
    rw [← h.dps.length]
    have h0 := Both.refl h hr hne
    by_cases hn : 0 < C.dps.length
    · rw [if_pos hn, if_pos hn]
      refine (refines_drainUnordered grow tk h 1).outcome.bind (fun m1 r R h1 => ?_)
      obtain ⟨h1, p, p', ho⟩ := h1
      have h2 := h0.step h1.step
      have hlen : R.1.length ≤ 1 := by
        have := Centroid.wp_drainUnordered tk C (n := 1) (by omega) p
        obtain ⟨a, q, e, pre, _, _, _, _, h5, _⟩ := Go.wp_iff.1 this
        rw [ho] at e
        cases e
        omega
      obtain ⟨acc', m2, e1, e2⟩ := h2.append grow R.1
      have ht1 : Tidy B m1 acc := ht.frame h1.step.frame (by simpa using fun e => hne e.symm)
      refine (det_load h1.repRes).refines_bind (e1.refines_bind ?_)
      exact tidy_memTrimLoop hB hg tk fuel e2.rep e2.repRes e2.ne (tidy_append hB hg h2.repRes ht1 hlen e1)
    · rw [if_neg hn, if_neg hn]
      exact Refines.pure ht

theorem tidy_memTrim {B : Nat} {grow : Nat → Nat → Nat} (hB : 1 ≤ B) (hg : ∀ c, grow c (c + 1) ≤ B * (c + 1)) (tk : Nat → Int) {m : Mem F}
    {c : SCentroid F} {C : Centroid F} (h : RepC m c C) :
    Refines m (memTrim grow tk c) (C.memTrim tk) (fun m' c' _ => Tidy B m' c'.dps) := by
  unfold memTrim Centroid.memTrim
  obtain ⟨s, m1, h1, h2, h3, h4, _, _⟩ := det_make m 0
  refine h1.refines_bind ?_
  rw [← h.dps.length]
  have hne : c.dps.arr ≠ s.arr := by have := h.dps.lt; omega
  have ht : Tidy B m1 s := by
    have e := h1 0
    unfold SGo.make at e
    cases e
    exact ⟨by show (0 : Nat) ≤ _; omega, rfl, [], by simp, rfl, by simp⟩
  refine (tidy_memTrimLoop hB hg tk _ (h.frame h3 (by simp)) h2 hne ht).bind (fun m' r R h5 => ?_)
  exact Refines.pure h5

end SCentroid
end Trypo
