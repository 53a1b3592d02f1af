import Verif.Proofs.KNN

/-!
# More about the KNN search loop: prefixes and ties
-/

set_option linter.unusedSectionVars false
set_option linter.unusedVariables false

namespace Trypo
open GoFloat Spec

variable {F : Type} [GoFloat F]

theorem bubble_take (asc : Bool) : ∀ (n : Nat) (items : List (ResultItem F)) (e : ResultItem F),
    (bubble e items asc).take n = bubble e (items.take n) asc
  | 0, items, e => by simp [bubble]
  | n + 1, [], e => by simp [bubble]
  | n + 1, it :: rest, e => by
    rw [List.take_succ_cons, bubble_cons, bubble_cons]
    split
    · rw [List.take_succ_cons, bubble_take asc n]
    · rw [List.take_succ_cons, bubble_take asc n]

theorem foldl_bubble_take (asc : Bool) (n : Nat) : ∀ (E items : List (ResultItem F)),
    (E.foldl (fun r e => bubble e r asc) items).take n = E.foldl (fun r e => bubble e r asc) (items.take n)
  | [], items => rfl
  | e :: E, items => by rw [List.foldl_cons, List.foldl_cons, foldl_bubble_take asc n E, bubble_take]

/-- A search for fewer is the beginning of a search for more. -/
theorem knnBrute_prefix (t : List F) (dist : List F → List F → Option F) (asc : Bool) {k k' : Nat} (hk : k ≤ k')
    (pool : List (List F)) : ∃ res res', knnBrute t pool (k : Int) asc dist = .ok res ∧ knnBrute t pool (k' : Int) asc dist = .ok res' ∧
      res <+: res' := by
  unfold knnBrute
  rw [if_neg (by omega), if_neg (by omega)]
  refine ⟨_, _, rfl, rfl, ?_⟩
  rw [Int.toNat_natCast, Int.toNat_natCast, knnLoop_eq, knnLoop_eq]
  have h : List.replicate k (⟨0, worstScore asc, false⟩ : ResultItem F) = (List.replicate k' ⟨0, worstScore asc, false⟩).take k := by
    rw [List.take_replicate, Nat.min_eq_left hk]
  rw [h, ← foldl_bubble_take]
  unfold resItems2Indexes
  exact ((List.take_prefix _ _).filter _).map _

/-- What one slot holds in the end: the first of the best. -/
theorem foldl_bubble_one [LawfulCmp F] (asc : Bool) : ∀ (E : List (ResultItem F)) (x : ResultItem F),
    x.set = true → (∀ e ∈ E, e.set = true ∧ eq e.score e.score = true) → ∃ y, E.foldl (fun r e => bubble e r asc) [x] = [y] ∧
      ∃ A B, x :: E = A ++ y :: B ∧ (∀ a ∈ A, Better asc y.score a.score) ∧ (∀ b ∈ B, ¬ Better asc b.score y.score)
  | [], x, hx, hE => ⟨x, rfl, [], [], rfl, by simp, by simp⟩
  | e :: E, x, hx, hE => by
    obtain ⟨he1, he2⟩ := hE e (by simp)
    rw [List.foldl_cons, bubble_cons]
    by_cases hb : Better asc e.score x.score
    · rw [if_pos (.inl hb)]
      obtain ⟨y, h1, A, B, h2, h3, h4⟩ := foldl_bubble_one asc E e he1 (fun z hz => hE z (by simp [hz]))
      refine ⟨y, h1, x :: A, B, by rw [h2]; rfl, fun a ha => ?_, h4⟩
      rcases List.mem_cons.1 ha with rfl | ha
      · cases A with
        | nil => cases h2; exact hb
        | cons a A => cases h2; exact better_trans (h3 e (by simp)) hb
      · exact h3 a ha
    · rw [if_neg (by simp [hb, hx])]
      obtain ⟨y, h1, A, B, h2, h3, h4⟩ := foldl_bubble_one asc E x hx (fun z hz => hE z (by simp [hz]))
      refine ⟨y, h1, ?_⟩
      cases A with
      | nil =>
        cases h2
        refine ⟨[], e :: E, rfl, by simp, fun b hb' => ?_⟩
        rcases List.mem_cons.1 hb' with rfl | hb'
        · exact hb
        · exact h4 b hb'
      | cons a A =>
        obtain ⟨hxa, h2'⟩ := List.cons.inj h2
        subst hxa
        refine ⟨x :: e :: A, B, by rw [h2']; rfl, fun b hb' => ?_, h4⟩
        rcases List.mem_cons.1 hb' with rfl | hb'
        · exact h3 _ (by simp)
        rcases List.mem_cons.1 hb' with rfl | hb'
        · exact (better_connected _ (h3 x (by simp)) he2).resolve_right hb
        · exact h3 b (by simp [hb'])

theorem eligItems_sorted (dist : List F → Option F) (asc : Bool) : ∀ (pool : List (List F)) (i : Nat),
    (eligItems dist asc i pool).Pairwise (fun a b => a.index < b.index)
  | [], i => by simp [eligItems]
  | v :: rest, i => by
    have ih := eligItems_sorted dist asc rest (i + 1)
    rw [eligItems_cons]
    cases hd : dist v with
    | none => exact ih
    | some s =>
      simp only
      split
      · refine List.pairwise_cons.2 ⟨fun b hb => ?_, ih⟩
        rw [eligItems_mem] at hb
        exact hb.2.1
      · exact ih

/-- The first result is the earliest of the best candidates. -/
theorem knnBrute_first [LawfulCmp F] (t : List F) (dist : List F → List F → Option F) (asc : Bool) {k : Int}
    {pool : List (List F)} {j : Nat} {res : List Nat} (h : knnBrute t pool k asc dist = .ok (j :: res)) {s : F}
    (hs : HasScore (dist t) asc pool j s) {i : Nat} (hi : i < j) {s' : F} (hs' : HasScore (dist t) asc pool i s') : Better asc s s' := by
  unfold knnBrute at h
  by_cases hk : k < 0
  · rw [if_pos hk] at h; cases h
  rw [if_neg hk] at h
  have h := Except.ok.inj h
  rw [knnLoop_eq] at h
  cases hn : k.toNat with
  | zero =>
    rw [hn, List.replicate_zero] at h
    have : ∀ E : List (ResultItem F), E.foldl (fun r e => bubble e r asc) [] = [] := by
      intro E
      induction E with
      | nil => rfl
      | cons e E ih => exact ih
    rw [this] at h
    simp [resItems2Indexes] at h
  | succ m =>
    rw [hn] at h
    have hj : (⟨i, s', true⟩ : ResultItem F) ∈ eligItems (dist t) asc 0 pool := by
      rw [eligItems_mem]; exact ⟨rfl, Nat.zero_le _, hs'⟩
    have hone := foldl_bubble_take asc 1 (eligItems (dist t) asc 0 pool) (List.replicate (m + 1) ⟨0, worstScore asc, false⟩)
    have hsort := eligItems_sorted (dist t) asc pool 0
    have hnum : ∀ e ∈ eligItems (dist t) asc 0 pool, e.set = true ∧ eq e.score e.score = true := fun e he => eligItems_num he
    have hmem : ∀ e ∈ eligItems (dist t) asc 0 pool, HasScore (dist t) asc pool e.index e.score := by
      intro e he
      rw [eligItems_mem] at he
      exact he.2.2
    generalize eligItems (dist t) asc 0 pool = E at h hj hone hsort hnum hmem
    cases E with
    | nil => cases hj
    | cons e E =>
      have hR : List.foldl (fun r e => bubble e r asc) ((List.replicate (m + 1) ⟨0, worstScore asc, false⟩).take 1) (e :: E) =
          List.foldl (fun r e => bubble e r asc) [e] E := by
        rw [List.replicate_succ, List.take_succ_cons, List.take_zero, List.foldl_cons, bubble_cons, if_pos (.inr rfl)]
        rfl
      rw [hR] at hone
      obtain ⟨y, h1, A, B, h2, h3, h4⟩ := foldl_bubble_one asc E e (hnum e (by simp)).1 (fun z hz => hnum z (by simp [hz]))
      rw [h1] at hone
      have hy : y ∈ e :: E := by rw [h2]; simp
      generalize List.foldl (fun r e => bubble e r asc) (List.replicate (m + 1) ⟨0, worstScore asc, false⟩) (e :: E) = items at h hone
      cases items with
      | nil => simp at hone
      | cons z items =>
        simp only [List.take_succ_cons, List.take_zero, List.cons.injEq, and_true] at hone
        subst hone
        unfold resItems2Indexes at h
        rw [List.filter_cons_of_pos (hnum _ hy).1, List.map_cons] at h
        have hyj : z.index = j := (List.cons.inj h).1
        subst hyj
        rw [hasScore_unique hs (hmem z hy)]
        rw [h2] at hj hsort
        rcases List.mem_append.1 hj with hA | hB
        · exact h3 _ hA
        · rcases List.mem_cons.1 hB with hB | hB
          · rw [← hB] at hi; exact absurd hi (Nat.lt_irrefl _)
          · have := (List.pairwise_cons.1 (List.pairwise_append.1 hsort).2.1).1 _ hB
            simp only at this
            omega

end Trypo
