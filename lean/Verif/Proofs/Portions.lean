import Verif.Model.Manager
import Verif.Proofs.PermTac
import Mathlib.Tactic.Linarith

/-!
# Lemmas about `centroidDataPointPortions`
-/

set_option linter.unusedSectionVars false

namespace Trypo
namespace Manager

/-- Portions after `r` complete passes. -/
def level (r : Nat) (sizes : List Nat) : List Nat := sizes.map (fun s => min r s)

theorem level_cons (r s : Nat) (l : List Nat) : level r (s :: l) = min r s :: level r l := rfl

theorem level_append (r : Nat) (a b : List Nat) : level r (a ++ b) = level r a ++ level r b := by simp [level]

theorem level_sum_le : ∀ (r : Nat) (l : List Nat), (level r l).sum ≤ (level (r + 1) l).sum
  | _, [] => Nat.le_refl _
  | r, s :: l => by
    have := level_sum_le r l
    simp only [level_cons, List.sum_cons]; omega

theorem level_sum_le_sum : ∀ (r : Nat) (l : List Nat), (level r l).sum ≤ l.sum
  | _, [] => Nat.le_refl _
  | r, s :: l => by
    have := level_sum_le_sum r l
    simp only [level_cons, List.sum_cons]; omega

theorem level_eq_of_sum : ∀ (r : Nat) (l : List Nat), (level (r + 1) l).sum = (level r l).sum → level r l = l
  | _, [], _ => rfl
  | r, s :: l, h => by
    have h1 := level_sum_le r l
    simp only [level_cons, List.sum_cons] at h
    have := level_eq_of_sum r l (by omega)
    rw [level_cons, this]
    congr 1
    omega

theorem level_zero (l : List Nat) : level 0 l = l.map (fun _ => 0) := by simp [level]

/-- One pass over portions at level `r`. -/
theorem pass_level (n : Int) (r : Nat) : ∀ (sizes : List Nat) (a : Int), a < n ∨ sizes = [] →
    ∃ A B, sizes = A ++ B ∧ (portionsPass n sizes (level r sizes) a).1 = level (r + 1) A ++ level r B ∧
      (portionsPass n sizes (level r sizes) a).2.1 = a + (level (r + 1) A).sum - (level r A).sum ∧
      ((portionsPass n sizes (level r sizes) a).2.2 = false → B = [] ∧
        (a < n → (portionsPass n sizes (level r sizes) a).2.1 < n)) ∧
      ((portionsPass n sizes (level r sizes) a).2.2 = true → (portionsPass n sizes (level r sizes) a).2.1 = n)
  | [], a, _ => ⟨[], [], rfl, rfl, by simp [level, portionsPass], by simp [level, portionsPass], by simp [level, portionsPass]⟩
  | s :: sizes, a, ha => by
    have ha : a < n := ha.resolve_right (by simp)
    have hv : (if min r s + 1 ≤ s then min r s + 1 else min r s) = min (r + 1) s := by split <;> omega
    have hd : (if min r s + 1 ≤ s then a + 1 else a) = a + (min (r + 1) s : Nat) - (min r s : Nat) := by split <;> omega
    rw [level_cons]
    unfold portionsPass
    simp only [hv, hd]
    by_cases hn : n ≤ a + (min (r + 1) s : Nat) - (min r s : Nat)
    · rw [if_pos hn]
      refine ⟨[s], sizes, rfl, by simp [level], ?_, by simp, fun _ => ?_⟩
      · simp [level]
      · simp only; omega
    · rw [if_neg hn]
      obtain ⟨A, B, h1, h2, h3, h4, h5⟩ := pass_level n r sizes (a + (min (r + 1) s : Nat) - (min r s : Nat)) (.inl (by omega))
      refine ⟨s :: A, B, by rw [h1]; rfl, ?_, ?_, fun h => ?_, fun h => ?_⟩
      · rw [h2]; rfl
      · rw [h3]; simp only [level_cons, List.sum_cons]; push_cast; omega
      · exact ⟨(h4 h).1, fun _ => (h4 h).2 (by omega)⟩
      · exact h5 h

theorem loop_level (n : Nat) (sizes : List Nat) : ∀ (fuel r : Nat), sizes.sum < fuel + (level r sizes).sum →
    (level r sizes).sum < n →
    ∃ A B r', sizes = A ++ B ∧ portionsLoop n sizes fuel (level r sizes) (level r sizes).sum = level (r' + 1) A ++ level r' B ∧
      (portionsLoop n sizes fuel (level r sizes) (level r sizes).sum).sum = min n sizes.sum
  | 0, r, hf, _ => by have := level_sum_le_sum r sizes; omega
  | fuel + 1, r, hf, hlt => by
    obtain ⟨A, B, h1, h2, h3, h4, h5⟩ := pass_level n r sizes (level r sizes).sum (.inl (by exact_mod_cast hlt))
    have hsum : (level r sizes).sum = (level r A).sum + (level r B).sum := by
      conv_lhs => rw [h1]
      simp [level_append]
    unfold portionsLoop
    simp only []
    by_cases hret : (portionsPass n sizes (level r sizes) (level r sizes).sum).2.2 = true
    · rw [if_pos hret]
      refine ⟨A, B, r, h1, h2, ?_⟩
      have h6 := h5 hret
      rw [h2, List.sum_append]
      have h7 := level_sum_le_sum (r + 1) A
      have h8 := level_sum_le_sum r B
      have h9 : sizes.sum = A.sum + B.sum := by rw [h1, List.sum_append]
      rw [h3] at h6
      omega
    · rw [if_neg hret]
      simp only [Bool.not_eq_true] at hret
      obtain ⟨hB, hlt'⟩ := h4 hret
      have hlt' := hlt' (by exact_mod_cast hlt)
      subst hB
      simp only [List.append_nil] at h1
      subst h1
      rw [h3] at hlt'
      have hnil : level r [] = [] := rfl
      rw [hnil, List.append_nil] at h2
      by_cases heq : ((level r sizes).sum : Int) = (portionsPass n sizes (level r sizes) (level r sizes).sum).2.1
      · rw [if_pos heq]
        refine ⟨sizes, [], r, by simp, by rw [h2]; simp [level], ?_⟩
        rw [h3] at heq
        have hl := level_eq_of_sum r sizes (by omega)
        have hl' : level (r + 1) sizes = sizes := by
          unfold level at *
          conv_rhs => rw [← hl]
          apply List.map_congr_left
          intro s hs
          have : min r s = s := by
            have := congrArg (fun l => l) hl
            have hmem : ∀ s ∈ sizes, min r s = s := by
              have := hl
              rw [List.map_eq_iff] at this
              intro s hs
              obtain ⟨i, hi⟩ := List.mem_iff_getElem?.1 hs
              have := this i
              rw [hi] at this
              simpa using this.symm
            exact hmem s hs
          omega
        rw [h2, hl']
        rw [hl] at hlt
        omega
      · rw [if_neg heq]
        rw [h2, h3]
        have e : ((level r sizes).sum : Int) + (level (r + 1) sizes).sum - (level r sizes).sum = (level (r + 1) sizes).sum := by
          omega
        rw [e]
        rw [h3, e] at heq
        have := level_sum_le r sizes
        exact loop_level n sizes fuel (r + 1) (by omega) (by omega)

/-- The shape and the sum of the portions for `n ≥ 1`. -/
theorem portions_spec (sizes : List Nat) {n : Nat} (hn : 1 ≤ n) :
    ∃ A B r, sizes = A ++ B ∧ portions sizes n = level (r + 1) A ++ level r B ∧ (portions sizes n).sum = min n sizes.sum := by
  unfold portions
  rw [← level_zero]
  have h0 : (level 0 sizes).sum = 0 := by
    rw [level_zero]; simp
  have := loop_level n sizes (sizes.sum + 1) 0 (by omega) (by omega)
  rw [h0] at this
  exact this

/-- For `n ≤ 0` only the first centroid can get a portion. -/
theorem portions_nonpos (sizes : List Nat) {n : Int} (hn : n ≤ 0) :
    portions sizes n = level 1 (sizes.take 1) ++ level 0 (sizes.drop 1) := by
  unfold portions
  cases sizes with
  | nil => rfl
  | cons s l =>
    simp only [List.sum_cons, List.map_cons, List.take_succ_cons, List.take_zero, List.drop_succ_cons, List.drop_zero,
      level_zero, level_cons]
    unfold portionsLoop portionsPass
    simp only [Nat.zero_add, Int.zero_add]
    have hif : n ≤ (if 1 ≤ s then (1 : Int) else 0) := by split <;> omega
    rw [if_pos hif]
    simp only [if_true]
    simp only [level, List.map_nil, List.cons_append, List.nil_append]
    congr 1
    split <;> omega

theorem portions_length (sizes : List Nat) (n : Int) : (portions sizes n).length = sizes.length := by
  by_cases h : n ≤ 0
  · rw [portions_nonpos sizes h]
    cases sizes <;> simp [level]
  · obtain ⟨m, rfl⟩ := Int.eq_ofNat_of_zero_le (show 0 ≤ n by omega)
    obtain ⟨A, B, r, h1, h2, _⟩ := portions_spec sizes (n := m) (by omega)
    rw [h2, h1]; simp [level]

theorem portions_le (sizes : List Nat) (n : Int) (i v s : Nat) (hv : (portions sizes n)[i]? = some v)
    (hs : sizes[i]? = some s) : v ≤ s := by
  have key : ∀ (A B : List Nat) (r r' : Nat), sizes = A ++ B → portions sizes n = level r A ++ level r' B → v ≤ s := by
    intro A B r r' h1 h2
    rw [h2] at hv
    rw [h1] at hs
    by_cases hi : i < A.length
    · rw [List.getElem?_append_left hi] at hs
      rw [List.getElem?_append_left (by simpa [level] using hi)] at hv
      simp only [level, List.getElem?_map, hs, Option.map_some, Option.some.injEq] at hv
      omega
    · rw [List.getElem?_append_right (by omega)] at hs
      rw [List.getElem?_append_right (by simp [level]; omega)] at hv
      simp only [level, List.length_map, List.getElem?_map, hs, Option.map_some, Option.some.injEq] at hv
      omega
  by_cases h : n ≤ 0
  · exact key (sizes.take 1) (sizes.drop 1) 1 0 (List.take_append_drop 1 sizes).symm (portions_nonpos sizes h)
  · obtain ⟨m, rfl⟩ := Int.eq_ofNat_of_zero_le (show 0 ≤ n by omega)
    obtain ⟨A, B, r, h1, h2, _⟩ := portions_spec sizes (n := m) (by omega)
    exact key A B _ _ h1 h2

theorem portions_sum_le (sizes : List Nat) (n : Int) : ((portions sizes n).sum : Int) ≤ max n 1 := by
  by_cases h : n ≤ 0
  · rw [portions_nonpos sizes h]
    cases sizes with
    | nil => simp [level]
    | cons s l => simp [level]
  · obtain ⟨m, rfl⟩ := Int.eq_ofNat_of_zero_le (show 0 ≤ n by omega)
    obtain ⟨A, B, r, h1, h2, h3⟩ := portions_spec sizes (n := m) (by omega)
    omega

/-! ### The entries of the portion map -/

variable {F : Type} [GoFloat F]

theorem entries_mem {cm : Manager F} {n : Int} {i v : Nat} (h : (i, v) ∈ cm.portionEntries n) :
    v ≠ 0 ∧ (portions (cm.centroids.map (fun c => c.lenDP)) n)[i]? = some v ∧
      ∃ c, cm.centroids[i]? = some c ∧ v ≤ c.dps.length := by
  unfold portionEntries at h
  obtain ⟨⟨v', j⟩, hq, heq⟩ := List.mem_map.1 h
  simp only [Prod.mk.injEq] at heq
  obtain ⟨h1, h2⟩ := heq
  subst h1; subst h2
  obtain ⟨hq, hne⟩ := List.mem_filter.1 hq
  rw [List.mem_zipIdx_iff_getElem?] at hq
  simp only at hq
  have hi : j < cm.centroids.length := by
    have := (List.getElem?_eq_some_iff.1 hq).1
    rw [portions_length] at this
    simpa using this
  have hc : cm.centroids[j]? = some cm.centroids[j] := List.getElem?_eq_getElem hi
  refine ⟨by simpa using hne, hq, cm.centroids[j], hc, ?_⟩
  exact portions_le _ _ j v' _ hq (by rw [List.getElem?_map, hc]; rfl)

theorem entries_nodup (cm : Manager F) (n : Int) : ((cm.portionEntries n).map (fun e => e.1)).Nodup := by
  unfold portionEntries
  rw [List.map_map]
  have : (fun q : Nat × Nat => (q.2, q.1).1) = Prod.snd := rfl
  rw [show ((fun e : Nat × Nat => e.1) ∘ fun q : Nat × Nat => (q.2, q.1)) = Prod.snd from rfl]
  have hs : (((portions (cm.centroids.map (fun c => c.lenDP)) n).zipIdx.filter (fun q => q.1 ≠ 0)).map Prod.snd).Sublist
      ((portions (cm.centroids.map (fun c => c.lenDP)) n).zipIdx.map Prod.snd) := (List.filter_sublist).map _
  apply hs.nodup
  rw [List.zipIdx_map_snd]
  exact List.nodup_range'

theorem sum_filter_ne_zero : ∀ (l : List (Nat × Nat)), ((l.filter (fun q => q.1 ≠ 0)).map (fun q => q.1)).sum = (l.map (fun q => q.1)).sum
  | [] => rfl
  | (v, i) :: l => by
    have ih := sum_filter_ne_zero l
    by_cases h : v = 0
    · rw [List.filter_cons_of_neg (by simpa using h)]
      simp only [List.map_cons, List.sum_cons, h]
      omega
    · rw [List.filter_cons_of_pos (by simpa using h)]
      simp only [List.map_cons, List.sum_cons, ih]

theorem entries_sum (cm : Manager F) (n : Int) : ((cm.portionEntries n).map (fun e => e.2)).sum =
    (portions (cm.centroids.map (fun c => c.lenDP)) n).sum := by
  unfold portionEntries
  rw [List.map_map]
  rw [show ((fun e : Nat × Nat => e.2) ∘ fun q : Nat × Nat => (q.2, q.1)) = fun q => q.1 from rfl, sum_filter_ne_zero]
  have := List.zipIdx_map_fst 0 (portions (cm.centroids.map (fun c => c.lenDP)) n)
  rw [show (Prod.fst : Nat × Nat → Nat) = fun q => q.1 from rfl] at this
  rw [this]

end Manager
end Trypo
