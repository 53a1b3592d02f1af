import Verif.Model.KNN
import Verif.Spec.Search
import Mathlib.Data.List.Perm.Subperm

/-!
# Lemmas about the KNN search loop
-/

set_option linter.unusedSectionVars false
set_option linter.unusedVariables false

namespace Trypo
open GoFloat Spec

variable {F : Type} [GoFloat F]

theorem better_irrefl [LawfulCmp F] (asc : Bool) (a : F) : ¬ Better asc a a := by
  unfold Better; cases asc <;> simp [LawfulCmp.lt_irrefl]

theorem better_trans [LawfulCmp F] {asc : Bool} {a b c : F} (h1 : Better asc a b) (h2 : Better asc b c) :
    Better asc a c := by
  unfold Better at *
  cases asc
  · simp at *; exact LawfulCmp.lt_trans _ _ _ h2 h1
  · simp at *; exact LawfulCmp.lt_trans _ _ _ h1 h2

theorem better_asymm [LawfulCmp F] {asc : Bool} {a b : F} (h1 : Better asc a b) : ¬ Better asc b a :=
  fun h2 => better_irrefl asc a (better_trans h1 h2)

theorem better_connected [LawfulCmp F] {asc : Bool} {a b : F} (c : F) (h : Better asc a b) (hc : eq c c = true) :
    Better asc a c ∨ Better asc c b := by
  unfold Better at *
  cases asc
  · simp at *; exact (LawfulCmp.lt_connected _ _ c h hc).symm
  · simp at *; exact LawfulCmp.lt_connected _ _ c h hc

theorem comparable_num [LawfulCmp F] {asc : Bool} {s : F} (h : Comparable asc s) : eq s s = true := by
  unfold Comparable Better at h
  cases asc
  · simp at h; exact LawfulCmp.lt_num_right _ _ h
  · simp at h; exact LawfulCmp.lt_num_left _ _ h

theorem bubble_cons (asc : Bool) (ins it : ResultItem F) (rest : List (ResultItem F)) :
    bubble ins (it :: rest) asc =
      if Better asc ins.score it.score ∨ it.set = false then ins :: bubble it rest asc
      else it :: bubble ins rest asc := by
  unfold Better
  cases asc <;> cases h : it.set <;> simp [bubble, h]
  · split <;> simp
  · split <;> simp

/-- Best first. -/
def SortedItems (asc : Bool) (L : List (ResultItem F)) : Prop :=
  L.Pairwise (fun a b => ¬ Better asc b.score a.score)

theorem bubble_split [LawfulCmp F] (asc : Bool) (rest : List (ResultItem F)) :
    ∀ (L : List (ResultItem F)) (ins : ResultItem F), (∀ x ∈ L, x.set = true) → SortedItems asc L →
      ∃ L' out, bubble ins (L ++ rest) asc = L' ++ bubble out rest asc ∧ L'.length = L.length ∧
        (L' ++ [out]).Perm (ins :: L) ∧ SortedItems asc (L' ++ [out])
  | [], ins, _, _ => ⟨[], ins, by simp, rfl, by simp, by simp [SortedItems]⟩
  | it :: L, ins, hset, hs => by
    have hits : it.set = true := hset it (by simp)
    have hs0 := hs
    unfold SortedItems at hs
    rw [List.pairwise_cons] at hs
    rw [List.cons_append, bubble_cons]
    by_cases hb : Better asc ins.score it.score
    · obtain ⟨L', out, h1, h2, h3, h4⟩ := bubble_split asc rest L it (fun x hx => hset x (by simp [hx])) hs.2
      refine ⟨ins :: L', out, by simp [hb, h1], by simp [h2], by simpa using h3.cons ins, ?_⟩
      unfold SortedItems at *
      rw [List.cons_append, List.pairwise_cons]
      refine ⟨fun x hx => ?_, h4⟩
      rw [h3.mem_iff] at hx
      rcases List.mem_cons.1 hx with rfl | hx
      · exact better_asymm hb
      · exact fun hx' => hs.1 x hx (better_trans hx' hb)
    · obtain ⟨L', out, h1, h2, h3, h4⟩ := bubble_split asc rest L ins (fun x hx => hset x (by simp [hx])) hs.2
      refine ⟨it :: L', out, by simp [hb, hits, h1], by simp [h2],
        by simpa using (h3.cons it).trans (List.Perm.swap _ _ _), ?_⟩
      unfold SortedItems at *
      rw [List.cons_append, List.pairwise_cons]
      refine ⟨fun x hx => ?_, h4⟩
      rw [h3.mem_iff] at hx
      rcases List.mem_cons.1 hx with rfl | hx
      · exact hb
      · exact hs.1 x hx

theorem bubble_replicate (asc : Bool) (u : ResultItem F) (hu : u.set = false) :
    ∀ m, bubble u (List.replicate m u) asc = List.replicate m u
  | 0 => by simp [bubble]
  | m + 1 => by simp [List.replicate_succ, bubble_cons, hu, bubble_replicate asc u hu m]

/-- The items the loop inserts, in order. -/
def eligItems (dist : List F → Option F) (asc : Bool) (i : Nat) : List (List F) → List (ResultItem F)
  | [] => []
  | v :: rest =>
    match dist v with
    | none => eligItems dist asc (i + 1) rest
    | some s => if Comparable asc s then ⟨i, s, true⟩ :: eligItems dist asc (i + 1) rest
                else eligItems dist asc (i + 1) rest

theorem eligItems_cons (dist : List F → Option F) (asc : Bool) (i : Nat) (v : List F) (rest : List (List F)) :
    eligItems dist asc i (v :: rest) =
      match dist v with
      | none => eligItems dist asc (i + 1) rest
      | some s => if Comparable asc s then ⟨i, s, true⟩ :: eligItems dist asc (i + 1) rest
                  else eligItems dist asc (i + 1) rest := rfl

theorem knnLoop_eq (t : List F) (dist : List F → List F → Option F) (asc : Bool) :
    ∀ (pool : List (List F)) (i : Nat) (res : List (ResultItem F)),
      knnLoop t dist asc res i pool = (eligItems (dist t) asc i pool).foldl (fun r e => bubble e r asc) res
  | [], i, res => by simp [knnLoop, eligItems]
  | v :: rest, i, res => by
    unfold knnLoop eligItems
    cases hd : dist t v with
    | none => simp only []; exact knnLoop_eq t dist asc rest (i + 1) res
    | some s =>
      simp only []
      rw [knnLoop_eq t dist asc rest (i + 1)]
      cases asc
      · by_cases hc : lt (neg maxFloat) s = true
        · simp [worstScore, Comparable, Better, hc]
        · simp [worstScore, Comparable, Better, hc]
      · by_cases hc : lt s maxFloat = true
        · simp [worstScore, Comparable, Better, hc]
        · simp [worstScore, Comparable, Better, hc]

theorem eligItems_mem (dist : List F → Option F) (asc : Bool) :
    ∀ (pool : List (List F)) (i : Nat) (e : ResultItem F), e ∈ eligItems dist asc i pool ↔
      e.set = true ∧ i ≤ e.index ∧ HasScore dist asc pool (e.index - i) e.score
  | [], i, e => by simp [eligItems, HasScore]
  | v :: rest, i, e => by
    have ih := eligItems_mem dist asc rest (i + 1) e
    have hstep : (e.set = true ∧ i ≤ e.index ∧ HasScore dist asc (v :: rest) (e.index - i) e.score) ↔
        (e.set = true ∧ e.index = i ∧ dist v = some e.score ∧ Comparable asc e.score) ∨
        (e.set = true ∧ i + 1 ≤ e.index ∧ HasScore dist asc rest (e.index - (i + 1)) e.score) := by
      constructor
      · rintro ⟨h1, h2, v', h3, h4⟩
        rcases Nat.eq_or_lt_of_le h2 with h | h
        · left
          subst h
          simp only [Nat.sub_self, List.getElem?_cons_zero, Option.some.injEq] at h3
          subst h3
          exact ⟨h1, rfl, h4⟩
        · right
          refine ⟨h1, h, v', ?_, h4⟩
          have : e.index - i = (e.index - (i + 1)) + 1 := by omega
          rw [this, List.getElem?_cons_succ] at h3
          exact h3
      · rintro (⟨h1, h2, h3, h4⟩ | ⟨h1, h2, v', h3, h4⟩)
        · exact ⟨h1, by omega, v, by simp [h2], h3, h4⟩
        · refine ⟨h1, by omega, v', ?_, h4⟩
          have : e.index - i = (e.index - (i + 1)) + 1 := by omega
          rw [this, List.getElem?_cons_succ]
          exact h3
    rw [hstep, ← ih, eligItems_cons]
    cases hd : dist v with
    | none => simp
    | some s =>
      by_cases hc : Comparable asc s
      · simp only [hc, if_true, List.mem_cons]
        constructor
        · rintro (h | h)
          · subst h; exact Or.inl ⟨rfl, rfl, rfl, hc⟩
          · exact Or.inr h
        · rintro (⟨h1, h2, h3, _⟩ | h)
          · left; cases e; simp_all
          · exact Or.inr h
      · simp only [hc, if_false]
        constructor
        · exact Or.inr
        · rintro (⟨_, _, h3, h4⟩ | h)
          · simp at h3; subst h3; exact (hc h4).elim
          · exact h

theorem eligItems_index_lt (dist : List F → Option F) (asc : Bool) :
    ∀ (pool : List (List F)) (i : Nat), ((eligItems dist asc i pool).map (fun e => e.index)).Nodup
  | [], i => by simp [eligItems]
  | v :: rest, i => by
    have ih := eligItems_index_lt dist asc rest (i + 1)
    unfold eligItems
    cases hd : dist v with
    | none => exact ih
    | some s =>
      by_cases hc : Comparable asc s
      · simp only [hc, if_true, List.map_cons, List.nodup_cons]
        refine ⟨fun h => ?_, ih⟩
        obtain ⟨e, he, hi⟩ := List.mem_map.1 h
        rw [eligItems_mem] at he
        omega
      · simpa only [hc, if_false] using ih

theorem eligItems_length (dist : List F → Option F) (asc : Bool) :
    ∀ (pool : List (List F)) (i : Nat), (eligItems dist asc i pool).length = pool.countP (isCandidate dist asc)
  | [], i => by simp [eligItems]
  | v :: rest, i => by
    have ih := eligItems_length dist asc rest (i + 1)
    unfold eligItems
    rw [List.countP_cons]
    cases hd : dist v with
    | none => simp [isCandidate, hd, ih]
    | some s =>
      by_cases hc : Comparable asc s
      · simp [isCandidate, hd, hc, ih]
      · simp [isCandidate, hd, hc, ih]

/-- Invariant of the slot array after the items `S` have been inserted. -/
def SlotInv (asc : Bool) (k : Nat) (u : ResultItem F) (S items : List (ResultItem F)) : Prop :=
  ∃ L m rest, items = L ++ List.replicate m u ∧ L.length + m = k ∧ SortedItems asc L ∧ (L ++ rest).Perm S ∧
    (∀ r ∈ rest, ∀ x ∈ L, ¬ Better asc r.score x.score) ∧ (0 < m → rest = [])

theorem slotInv_step [LawfulCmp F] {asc : Bool} {k : Nat} {u : ResultItem F} (hu : u.set = false)
    {S items : List (ResultItem F)} {e : ResultItem F}
    (hS : ∀ x ∈ S, x.set = true ∧ eq x.score x.score = true) (he : e.set = true ∧ eq e.score e.score = true)
    (h : SlotInv asc k u S items) : SlotInv asc k u (S ++ [e]) (bubble e items asc) := by
  obtain ⟨L, m, rest, rfl, hk, hs, hp, hd, hm⟩ := h
  have hL : ∀ x ∈ L, x ∈ S := fun x hx => hp.mem_iff.1 (by simp [hx])
  obtain ⟨L', out, h1, h2, h3, h4⟩ :=
    bubble_split asc (List.replicate m u) L e (fun x hx => (hS x (hL x hx)).1) hs
  have hout : eq out.score out.score = true := by
    have : out ∈ e :: L := h3.mem_iff.1 (by simp)
    rcases List.mem_cons.1 this with rfl | h
    · exact he.2
    · exact (hS out (hL out h)).2
  have hsplit := h4
  unfold SortedItems at hsplit
  rw [List.pairwise_append] at hsplit
  have hSe : (e :: S).Perm (S ++ [e]) := by
    have := (List.perm_append_comm : (S ++ [e]).Perm ([e] ++ S))
    exact this.symm
  rw [h1]
  cases m with
  | zero =>
    refine ⟨L', 0, out :: rest, by simp [bubble], by omega, hsplit.1, ?_, ?_, by simp⟩
    · have : (L' ++ out :: rest) = (L' ++ [out]) ++ rest := by simp
      rw [this]
      exact ((h3.append_right rest).trans (by simpa using hp.cons e)).trans hSe
    · intro r hr x hx
      rcases List.mem_cons.1 hr with rfl | hr
      · exact hsplit.2.2 x hx r (by simp)
      · have hx' : x ∈ e :: L := h3.mem_iff.1 (by simp [hx])
        by_cases hxL : x ∈ L
        · exact hd r hr x hxL
        · have hxe : x = e := (List.mem_cons.1 hx').resolve_right hxL
          intro hb
          rcases better_connected out.score hb hout with hb' | hb'
          · have hoL : out ∈ L ∨ out = e := (List.mem_cons.1 (h3.mem_iff.1 (by simp : out ∈ L' ++ [out]))).symm
            rcases hoL with ho | ho
            · exact hd r hr out ho hb'
            · have h5 : L'.Perm L := by
                rw [ho] at h3
                have : (e :: L').Perm (e :: L) := (List.perm_append_comm : (L' ++ [e]).Perm _).symm.trans h3
                exact this.cons_inv
              exact hxL (h5.mem_iff.1 hx)
          · exact hsplit.2.2 x hx out (by simp) hb'
  | succ m =>
    have hrest := hm (by omega)
    subst hrest
    refine ⟨L' ++ [out], m, [], ?_, by simp; omega, h4, ?_, by simp, by simp⟩
    · simp [List.replicate_succ, bubble_cons, hu, bubble_replicate asc u hu m]
    · simp only [List.append_nil] at *
      exact (h3.trans (hp.cons e)).trans hSe

theorem slotInv_foldl [LawfulCmp F] {asc : Bool} {k : Nat} {u : ResultItem F} (hu : u.set = false) :
    ∀ (E S items : List (ResultItem F)), (∀ x ∈ S ++ E, x.set = true ∧ eq x.score x.score = true) →
      SlotInv asc k u S items → SlotInv asc k u (S ++ E) (E.foldl (fun r e => bubble e r asc) items)
  | [], S, items, _, h => by simpa using h
  | e :: E, S, items, hS, h => by
    have h1 := slotInv_step hu (fun x hx => hS x (by simp [hx])) (hS e (by simp)) h
    have h2 := slotInv_foldl hu E (S ++ [e]) _ (by simpa using hS) h1
    simpa using h2

theorem eligItems_num [LawfulCmp F] {dist : List F → Option F} {asc : Bool} {pool : List (List F)} {i : Nat}
    {x : ResultItem F} (h : x ∈ eligItems dist asc i pool) : x.set = true ∧ eq x.score x.score = true := by
  rw [eligItems_mem] at h
  obtain ⟨h1, _, v, _, _, h2⟩ := h
  exact ⟨h1, comparable_num h2⟩

/-- The final slots: a sorted selection of candidates. -/
theorem knnLoop_final [LawfulCmp F] (t : List F) (dist : List F → List F → Option F) (asc : Bool) (k : Nat)
    (pool : List (List F)) :
    ∃ L rest, resItems2Indexes (knnLoop t dist asc (List.replicate k ⟨0, worstScore asc, false⟩) 0 pool) =
        L.map (fun e => e.index) ∧
      SortedItems asc L ∧ (L ++ rest).Perm (eligItems (dist t) asc 0 pool) ∧
      (∀ r ∈ rest, ∀ x ∈ L, ¬ Better asc r.score x.score) ∧ L.length ≤ k ∧ (L.length < k → rest = []) := by
  have h0 : SlotInv asc k (⟨0, worstScore asc, false⟩ : ResultItem F) []
      (List.replicate k ⟨0, worstScore asc, false⟩) :=
    ⟨[], k, [], by simp, by simp, by simp [SortedItems], by simp, by simp, by simp⟩
  have h1 := slotInv_foldl rfl (eligItems (dist t) asc 0 pool) [] _ (fun x hx => eligItems_num (by simpa using hx)) h0
  rw [knnLoop_eq]
  obtain ⟨L, m, rest, h2, h3, h4, h5, h6, h7⟩ := h1
  refine ⟨L, rest, ?_, h4, h5, h6, by omega, fun h => h7 (by omega)⟩
  rw [h2]
  unfold resItems2Indexes
  have hL : L.filter (fun it => it.set) = L := by
    rw [List.filter_eq_self]
    intro x hx
    exact (eligItems_num (h5.mem_iff.1 (by simp [hx]))).1
  have hR : (List.replicate m (⟨0, worstScore asc, false⟩ : ResultItem F)).filter (fun it => it.set) = [] := by
    simp
  rw [List.filter_append, hL, hR, List.append_nil]

theorem hasScore_unique {dist : List F → Option F} {asc : Bool} {pool : List (List F)} {i : Nat} {s t : F}
    (h1 : HasScore dist asc pool i s) (h2 : HasScore dist asc pool i t) : s = t := by
  obtain ⟨v, a, b, _⟩ := h1
  obtain ⟨w, c, d, _⟩ := h2
  rw [a] at c; cases c
  rw [b] at d; cases d
  rfl

theorem knnBrute_kbest [LawfulCmp F] (t : List F) (dist : List F → List F → Option F) (asc : Bool) (k : Nat)
    (pool : List (List F)) :
    ∃ res, knnBrute t pool (k : Int) asc dist = .ok res ∧ KBest (dist t) asc pool k res := by
  obtain ⟨L, rest, h1, h2, h3, h4, h5, h6⟩ := knnLoop_final t dist asc k pool
  refine ⟨_, by unfold knnBrute; rw [if_neg (by omega)], ?_⟩
  rw [Int.toNat_natCast, h1]
  have hmem : ∀ e ∈ L, HasScore (dist t) asc pool e.index e.score := by
    intro e he
    have := h3.mem_iff.1 (List.mem_append_left rest he)
    rw [eligItems_mem] at this
    exact this.2.2
  have hnd : ((L ++ rest).map (fun e => e.index)).Nodup :=
    (h3.map (fun e => e.index)).nodup_iff.2 (eligItems_index_lt (dist t) asc pool 0)
  constructor
  · rw [List.map_append] at hnd
    exact (List.nodup_append.1 hnd).1
  · intro i hi
    obtain ⟨e, he, rfl⟩ := List.mem_map.1 hi
    exact ⟨e.score, hmem e he⟩
  · rw [List.length_map, ← eligItems_length (dist t) asc pool 0, ← h3.length_eq]
    rcases Nat.lt_or_ge L.length k with h | h
    · simp [h6 h]; omega
    · simp; omega
  · rw [List.pairwise_map]
    refine List.Pairwise.imp_of_mem ?_ h2
    intro a b ha hb hab s t' hs ht
    rw [hasScore_unique hs (hmem a ha), hasScore_unique ht (hmem b hb)]
    exact hab
  · intro i hi j hj s t' hs ht
    obtain ⟨e, he, rfl⟩ := List.mem_map.1 hi
    rw [hasScore_unique hs (hmem e he)]
    have hjm : (⟨j, t', true⟩ : ResultItem F) ∈ eligItems (dist t) asc 0 pool := by
      rw [eligItems_mem]; exact ⟨rfl, Nat.zero_le _, ht⟩
    rw [← h3.mem_iff, List.mem_append] at hjm
    rcases hjm with hjm | hjm
    · exact (hj (List.mem_map.2 ⟨_, hjm, rfl⟩)).elim
    · exact h4 _ hjm e he

/-! ### Relabelling, for incomparable entries -/

/-- `x'` is `x` with its index renamed by `f` (unset items may carry any index). -/
def Renamed (f : Nat → Nat) (x x' : ResultItem F) : Prop :=
  x'.set = x.set ∧ x'.score = x.score ∧ (x.set = true → x'.index = f x.index)

theorem bubble_renamed (f : Nat → Nat) (asc : Bool) : ∀ (items items' : List (ResultItem F)) (e e' : ResultItem F),
    Renamed f e e' → List.Forall₂ (Renamed f) items items' →
    List.Forall₂ (Renamed f) (bubble e items asc) (bubble e' items' asc)
  | _, _, e, e', _, .nil => by simp [bubble]
  | it :: rest, it' :: rest', e, e', he, .cons hi hr => by
    rw [bubble_cons, bubble_cons, he.2.1, hi.2.1, hi.1]
    split
    · exact .cons he (bubble_renamed f asc rest rest' it it' hi hr)
    · exact .cons hi (bubble_renamed f asc rest rest' e e' he hr)

theorem foldl_bubble_renamed (f : Nat → Nat) (asc : Bool) : ∀ (E E' items items' : List (ResultItem F)),
    List.Forall₂ (Renamed f) E E' → List.Forall₂ (Renamed f) items items' →
    List.Forall₂ (Renamed f) (E.foldl (fun r e => bubble e r asc) items) (E'.foldl (fun r e => bubble e r asc) items')
  | _, _, items, items', .nil, h => h
  | e :: E, e' :: E', items, items', .cons he hE, h =>
    foldl_bubble_renamed f asc E E' _ _ hE (bubble_renamed f asc items items' e e' he h)

theorem resItems2Indexes_renamed (f : Nat → Nat) : ∀ (items items' : List (ResultItem F)),
    List.Forall₂ (Renamed f) items items' → resItems2Indexes items' = (resItems2Indexes items).map f
  | _, _, .nil => by simp [resItems2Indexes]
  | x :: l, x' :: l', .cons h hl => by
    have ih := resItems2Indexes_renamed f l l' hl
    unfold resItems2Indexes at *
    rw [List.filter_cons, List.filter_cons, h.1]
    cases hx : x.set with
    | false => simpa using ih
    | true => simp [ih, h.2.2 hx]

/-- Positions (starting at `i`) of the vectors satisfying `P`. -/
theorem eligItems_filter (dist : List F → Option F) (asc : Bool) (P : List F → Bool)
    (f : Nat → Nat) :
    ∀ (pool : List (List F)) (i j : Nat), (∀ v ∈ pool, P v = false → isCandidate dist asc v = false) →
      (∀ m, ∀ x, (((pool.zipIdx i).filter (fun q => P q.1)).map (fun q => q.2))[m]? = some x → f (j + m) = x) →
      List.Forall₂ (Renamed f) (eligItems dist asc j (pool.filter P)) (eligItems dist asc i pool)
  | [], i, j, _, _ => by simp [eligItems]
  | v :: rest, i, j, hP, hf => by
    rw [List.zipIdx_cons] at hf
    cases hv : P v with
    | false =>
      rw [List.filter_cons_of_neg (by simp [hv])]
      have hc := hP v (by simp) hv
      have hE : eligItems dist asc i (v :: rest) = eligItems dist asc (i + 1) rest := by
        rw [eligItems_cons]
        unfold isCandidate at hc
        cases hd : dist v with
        | none => rfl
        | some s => rw [hd] at hc; simp only [] at hc ⊢; rw [if_neg (by simpa using hc)]
      rw [hE]
      rw [List.filter_cons_of_neg (by simp [hv])] at hf
      exact eligItems_filter dist asc P f rest (i + 1) j (fun w hw => hP w (by simp [hw])) hf
    | true =>
      rw [List.filter_cons_of_pos hv]
      rw [List.filter_cons_of_pos (p := fun q : List F × Nat => P q.1) (a := (v, i)) hv, List.map_cons] at hf
      have ih := eligItems_filter dist asc P f rest (i + 1) (j + 1) (fun w hw => hP w (by simp [hw])) (by
        intro m x hx
        have := hf (m + 1) x (by simpa using hx)
        rw [← this]; congr 1; omega)
      rw [eligItems_cons, eligItems_cons]
      cases hd : dist v with
      | none => exact ih
      | some s =>
        simp only []
        split
        · refine .cons ⟨rfl, rfl, fun _ => ?_⟩ ih
          have := hf 0 i (by simp)
          simpa using this.symm
        · exact ih

/-! ### Positions -/

theorem mem_positions (P : List F → Bool) (pool : List (List F)) (i : Nat) :
    i ∈ positions P pool ↔ ∃ v, pool[i]? = some v ∧ P v = true := by
  unfold positions
  simp only [List.mem_map, List.mem_filter, Prod.exists, List.mem_zipIdx_iff_getElem?]
  constructor
  · rintro ⟨v, j, ⟨h1, h2⟩, rfl⟩; exact ⟨v, h1, h2⟩
  · rintro ⟨v, h1, h2⟩; exact ⟨v, i, ⟨h1, h2⟩, rfl⟩

theorem positions_nodup (P : List F → Bool) (pool : List (List F)) : (positions P pool).Nodup := by
  unfold positions
  have h : ((pool.zipIdx.filter (fun q => P q.1)).map (fun q => q.2)).Sublist (pool.zipIdx.map (fun q => q.2)) :=
    (List.filter_sublist).map _
  have h2 : (pool.zipIdx.map (fun q => q.2)).Nodup := by
    have := List.zipIdx_map_snd 0 pool
    unfold Prod.snd at this
    rw [this]; exact List.nodup_range'
  exact h.nodup h2

theorem positions_length (P : List F → Bool) (pool : List (List F)) : (positions P pool).length = pool.countP P := by
  unfold positions
  rw [List.length_map, ← List.countP_eq_length_filter]
  have := List.countP_map (p := P) (f := fun q : List F × Nat => q.1) (l := pool.zipIdx)
  have h2 : pool.zipIdx.map (fun q => q.1) = pool := List.zipIdx_map_fst 0 pool
  rw [h2] at this
  exact this.symm

theorem count_ge (P : List F → Bool) (pool : List (List F)) (I : List Nat) (hI : I.Nodup)
    (h : ∀ i ∈ I, ∃ v, pool[i]? = some v ∧ P v = true) : I.length ≤ pool.countP P := by
  rw [← positions_length]
  exact (List.subperm_of_subset hI (fun i hi => (mem_positions P pool i).2 (h i hi))).length_le

theorem count_le (P : List F → Bool) (pool : List (List F)) (I : List Nat)
    (h : ∀ i v, pool[i]? = some v → P v = true → i ∈ I) : pool.countP P ≤ I.length := by
  rw [← positions_length]
  refine (List.subperm_of_subset (positions_nodup P pool) (fun i hi => ?_)).length_le
  obtain ⟨v, h1, h2⟩ := (mem_positions P pool i).1 hi
  exact h i v h1 h2

/-- A candidate with a score better than `t`. -/
def betterThan (dist : List F → Option F) (asc : Bool) (t : F) (v : List F) : Bool :=
  match dist v with
  | none => false
  | some s => decide (Comparable asc s ∧ Better asc s t)

theorem kbest_not_better [LawfulCmp F] {dist : List F → Option F} {asc : Bool} {pool pool' : List (List F)} {k : Nat}
    {res res' : List Nat} (hp : pool.Perm pool') (h : KBest dist asc pool k res) (h' : KBest dist asc pool' k res')
    {m i j : Nat} {s t : F} (hi : res[m]? = some i) (hj : res'[m]? = some j) (hs : HasScore dist asc pool i s)
    (ht : HasScore dist asc pool' j t) : ¬ Better asc s t := by
  intro hb
  have hmlen : m < res.length := (List.getElem?_eq_some_iff.1 hi).1
  have h1 : (res.take (m + 1)).length ≤ pool.countP (betterThan dist asc t) := by
    refine count_ge _ _ _ (h.nodup.sublist (List.take_sublist _ _)) (fun x hx => ?_)
    obtain ⟨u, hu⟩ := h.valid x (List.mem_of_mem_take hx)
    have hbu : Better asc u t := by
      obtain ⟨q, hq, hqx⟩ := List.mem_take_iff_getElem.1 hx
      have hqm : q ≤ m := by omega
      rcases Nat.lt_or_ge q m with hlt | hge
      · have := (List.pairwise_iff_getElem.1 h.sorted) q m (by omega) hmlen hlt u s
        rw [(List.getElem?_eq_some_iff.1 hi).2, hqx] at this
        have hns := this hu hs
        rcases better_connected u hb (comparable_num hu.choose_spec.2.2) with h3 | h3
        · exact (hns h3).elim
        · exact h3
      · have : q = m := by omega
        subst this
        rw [(List.getElem?_eq_some_iff.1 hi).2] at hqx
        subst hqx
        rw [hasScore_unique hu hs]; exact hb
    obtain ⟨v, hv1, hv2, hv3⟩ := hu
    exact ⟨v, hv1, by simp [betterThan, hv2, hv3, hbu]⟩
  have h2 : pool'.countP (betterThan dist asc t) ≤ (res'.take m).length := by
    refine count_le _ _ _ (fun x v hv hP => ?_)
    unfold betterThan at hP
    cases hd : dist v with
    | none => rw [hd] at hP; simp at hP
    | some u =>
      rw [hd] at hP
      simp only [decide_eq_true_eq] at hP
      have hx : HasScore dist asc pool' x u := ⟨v, hv, hd, hP.1⟩
      by_cases hxr : x ∈ res'
      · obtain ⟨q, hq, rfl⟩ := List.mem_iff_getElem.1 hxr
        rcases Nat.lt_or_ge q m with hlt | hge
        · exact List.mem_take_iff_getElem.2 ⟨q, by omega, rfl⟩
        · exfalso
          obtain ⟨hml, hmj⟩ := List.getElem?_eq_some_iff.1 hj
          rcases Nat.eq_or_lt_of_le hge with heq | hlt
          · subst heq
            rw [hmj] at hx
            rw [hasScore_unique hx ht] at hP
            exact better_irrefl _ _ hP.2
          · have := (List.pairwise_iff_getElem.1 h'.sorted) m q hml hq hlt t u
            rw [hmj] at this
            exact this ht hx hP.2
      · exact (h'.best j (List.mem_of_getElem? hj) x hxr t u ht hx hP.2).elim
  rw [hp.countP_eq] at h1
  simp only [List.length_take] at h1 h2
  omega

end Trypo
