import Verif.Spec.Slice

/-!
# Slices represent lists

`Refines m x y R`: started in the memory `m`, the slice program `x` panics when the list program `y` does, reads the clock
as often, and otherwise the two results are related by `R` in the final memory.
-/

namespace Trypo
open GoFloat SGo

set_option linter.unusedSectionVars false

variable {F : Type} {α β γ δ : Type}

namespace SGo

/-- See above. -/
def Refines (m : Mem F) (x : SGo F α) (y : Go β) (R : Mem F → α → β → Prop) : Prop :=
  ∀ p, match y p with
    | .error e => x m p = .error e
    | .ok (b, p') => ∃ a m', x m p = .ok ((a, m'), p') ∧ R m' a b

/-- The program `x` always succeeds in the memory `m`, without reading the clock. -/
def Det (m : Mem F) (x : SGo F α) (a : α) (m' : Mem F) : Prop := ∀ p, x m p = .ok ((a, m'), p)

theorem Refines.mono {m : Mem F} {x : SGo F α} {y : Go β} {R S : Mem F → α → β → Prop} (h : Refines m x y R)
    (hs : ∀ m' a b, R m' a b → S m' a b) : Refines m x y S := by
  intro p
  have := h p
  cases e : y p with
  | error e' => rw [e] at this; exact this
  | ok r =>
    rw [e] at this
    obtain ⟨a, m', h1, h2⟩ := this
    exact ⟨a, m', h1, hs _ _ _ h2⟩

theorem Refines.bind {m : Mem F} {x : SGo F α} {y : Go β} {R : Mem F → α → β → Prop} {f : α → SGo F γ} {g : β → Go δ}
    {S : Mem F → γ → δ → Prop} (h : Refines m x y R) (hf : ∀ m' a b, R m' a b → Refines m' (f a) (g b) S) :
    Refines m (x >>= f) (y >>= g) S := by
  intro p
  have h1 := h p
  simp only [Bind.bind, StateT.bind, Except.bind]
  cases e : y p with
  | error e' => rw [e] at h1; simp only [h1]
  | ok r =>
    rw [e] at h1
    obtain ⟨a, m', h2, h3⟩ := h1
    have h4 := hf m' a r.1 h3 r.2
    simp only [h2]
    exact h4

theorem Refines.pure {m : Mem F} {a : α} {b : β} {R : Mem F → α → β → Prop} (h : R m a b) :
    Refines m (Pure.pure a : SGo F α) (Pure.pure b : Go β) R := fun _ => ⟨a, m, rfl, h⟩

theorem Refines.lift (m : Mem F) (x : Go α) : Refines m (SGo.lift x) x (fun m' a b => m' = m ∧ a = b) := by
  intro p
  unfold SGo.lift
  cases e : x p with
  | error e' => simp only
  | ok r => exact ⟨r.1, m, by simp only, rfl, rfl⟩

theorem Refines.lift_bind {m : Mem F} {x : Go α} {f : α → SGo F γ} {g : α → Go δ} {S : Mem F → γ → δ → Prop}
    (hf : ∀ a, Refines m (f a) (g a) S) : Refines m (SGo.lift x >>= f) (x >>= g) S :=
  (Refines.lift m x).bind (fun m' a b h => by obtain ⟨rfl, rfl⟩ := h; exact hf a)

theorem Det.bind {m m' m'' : Mem F} {x : SGo F α} {f : α → SGo F β} {a : α} {b : β} (h : Det m x a m')
    (hf : Det m' (f a) b m'') : Det m (x >>= f) b m'' := by
  intro p
  simp only [Bind.bind, StateT.bind, Except.bind, h p]
  exact hf p

theorem Det.pure (m : Mem F) (a : α) : Det m (Pure.pure a : SGo F α) a m := fun _ => rfl

theorem Det.refines_bind {m m' : Mem F} {x : SGo F α} {a : α} {f : α → SGo F γ} {y : Go δ} {S : Mem F → γ → δ → Prop}
    (h : Det m x a m') (hf : Refines m' (f a) y S) : Refines m (x >>= f) y S := by
  intro p
  have h1 := hf p
  simp only [Bind.bind, StateT.bind, Except.bind, h p]
  exact h1

theorem Det.refines {m m' : Mem F} {x : SGo F α} {a : α} {b : β} {S : Mem F → α → β → Prop}
    (h : Det m x a m') (hs : S m' a b) : Refines m x (Pure.pure b : Go β) S := fun p => ⟨a, m', h p, hs⟩

/-! ### Representation -/

/-- The slice `s` holds the list `l`. -/
structure Rep (m : Mem F) (s : Slice) (l : List (DataPoint F)) : Prop where
  ex : ∃ a, m[s.arr]? = some a ∧ s.off + s.cap ≤ a.length ∧ (a.drop s.off).take s.len = l
  le : s.len ≤ s.cap

theorem Rep.lt {m : Mem F} {s : Slice} {l : List (DataPoint F)} (h : Rep m s l) : s.arr < m.length := by
  obtain ⟨a, h1, _⟩ := h.ex
  exact (List.getElem?_eq_some_iff.1 h1).1

theorem Rep.view {m : Mem F} {s : Slice} {l : List (DataPoint F)} (h : Rep m s l) : SGo.view m s = l := by
  obtain ⟨a, h1, _, h2⟩ := h.ex
  unfold SGo.view
  rw [h1]
  exact h2

theorem Rep.length {m : Mem F} {s : Slice} {l : List (DataPoint F)} (h : Rep m s l) : l.length = s.len := by
  obtain ⟨a, h1, h2, h3⟩ := h.ex
  have := h.le
  rw [← h3, List.length_take, List.length_drop]
  omega

/-- Only arrays in `A` and new ones differ. -/
structure Frame (m m' : Mem F) (A : List Nat) : Prop where
  le : m.length ≤ m'.length
  same : ∀ j, j < m.length → j ∉ A → m'[j]? = m[j]?

theorem Frame.refl (m : Mem F) (A : List Nat) : Frame m m A := ⟨Nat.le_refl _, fun _ _ _ => rfl⟩

/-- One of the arrays in `A`, or a new one. -/
def Own (m : Mem F) (A : List Nat) (j : Nat) : Prop := j ∈ A ∨ m.length ≤ j

theorem Frame.trans {m m' m'' : Mem F} {A B : List Nat} (h : Frame m m' A) (h' : Frame m' m'' B) (hb : ∀ j ∈ B, Own m A j) :
    Frame m m'' A := by
  refine ⟨Nat.le_trans h.le h'.le, fun j hj ha => ?_⟩
  rw [h'.same j (Nat.lt_of_lt_of_le hj h.le) (fun hjb => ?_), h.same j hj ha]
  rcases hb j hjb with h1 | h1
  · exact ha h1
  · omega

theorem Frame.mono {m m' : Mem F} {A B : List Nat} (h : Frame m m' A) (hb : ∀ j ∈ A, j ∈ B) : Frame m m' B :=
  ⟨h.le, fun j hj ha => h.same j hj (fun hja => ha (hb j hja))⟩

theorem Own.trans {m m' : Mem F} {A B : List Nat} {j : Nat} (h : Own m' B j) (hm : m.length ≤ m'.length) (hb : ∀ j ∈ B, Own m A j) :
    Own m A j := by
  rcases h with h | h
  · exact hb j h
  · exact .inr (Nat.le_trans hm h)

theorem Rep.frame {m m' : Mem F} {A : List Nat} {s : Slice} {l : List (DataPoint F)} (h : Rep m s l) (hf : Frame m m' A)
    (ha : s.arr ∉ A) : Rep m' s l := by
  obtain ⟨a, h1, h2⟩ := h.ex
  exact ⟨⟨a, by rw [hf.same _ h.lt ha]; exact h1, h2⟩, h.le⟩

/-! ### The primitive operations -/

theorem det_make (m : Mem F) (n : Nat) : ∃ s m', Det m (SGo.make n) s m' ∧ Rep m' s [] ∧ Frame m m' [] ∧ s.arr = m.length ∧
    s.len = 0 ∧ s.cap = n := by
  refine ⟨⟨m.length, 0, 0, n⟩, m ++ [List.replicate n zero], fun p => rfl, ⟨⟨List.replicate n zero, ?_, ?_, ?_⟩, Nat.zero_le _⟩, ⟨by simp, ?_⟩, rfl, rfl, rfl⟩
  · simp
  · simp
  · simp
  · intro j hj _
    rw [List.getElem?_append_left hj]

theorem det_read {m : Mem F} {s : Slice} {l : List (DataPoint F)} (h : Rep m s l) {i : Nat} {d : DataPoint F} (hd : l[i]? = some d) :
    Det m (SGo.read s i) d m := by
  intro p
  unfold SGo.read
  rw [h.view, hd]

theorem det_load {m : Mem F} {s : Slice} {l : List (DataPoint F)} (h : Rep m s l) : Det m (SGo.load s) l m := by
  intro p
  unfold SGo.load
  rw [h.view]

theorem det_sliceTo {m : Mem F} {s : Slice} {l : List (DataPoint F)} (h : Rep m s l) {i : Nat} (hi : i ≤ l.length) :
    Det m (SGo.sliceTo s i) { s with len := i } m ∧ Rep m { s with len := i } (l.take i) := by
  have hl := h.length
  have hc := h.le
  constructor
  · intro p
    unfold SGo.sliceTo
    rw [if_pos (by omega)]
    rfl
  · obtain ⟨a, h1, h2, h3⟩ := h.ex
    refine ⟨⟨a, h1, h2, ?_⟩, by show i ≤ s.cap; omega⟩
    show (a.drop s.off).take i = l.take i
    rw [← h3, List.take_take]
    congr 1
    omega

theorem det_sliceFrom {m : Mem F} {s : Slice} {l : List (DataPoint F)} (h : Rep m s l) {i : Nat} (hi : i ≤ l.length) :
    Det m (SGo.sliceFrom s i) ⟨s.arr, s.off + i, s.len - i, s.cap - i⟩ m ∧
      Rep m ⟨s.arr, s.off + i, s.len - i, s.cap - i⟩ (l.drop i) := by
  have hl := h.length
  have hc := h.le
  constructor
  · intro p
    unfold SGo.sliceFrom
    rw [if_pos (by omega)]
    rfl
  · obtain ⟨a, h1, h2, h3⟩ := h.ex
    refine ⟨⟨a, h1, by show s.off + i + (s.cap - i) ≤ a.length; omega, ?_⟩, by show s.len - i ≤ s.cap - i; omega⟩
    show (a.drop (s.off + i)).take (s.len - i) = l.drop i
    rw [← h3, List.drop_take, List.drop_drop]

theorem det_append (grow : Nat → Nat → Nat) {m : Mem F} {s : Slice} {l : List (DataPoint F)} (h : Rep m s l) (xs : List (DataPoint F)) :
    ∃ s' m', Det m (SGo.append grow s xs) s' m' ∧ Rep m' s' (l ++ xs) ∧ Frame m m' [s.arr] ∧
      (s'.arr = s.arr ∧ s.len + xs.length ≤ s.cap ∧ s'.cap = s.cap ∨
        s'.arr = m.length ∧ s.cap < s.len + xs.length ∧ s'.cap = max (s.len + xs.length) (grow s.cap (s.len + xs.length))) := by
  have hl := h.length
  have hc := h.le
  obtain ⟨a, h1, h2, h3⟩ := h.ex
  by_cases hn : s.len + xs.length ≤ s.cap
  · refine ⟨{ s with len := s.len + xs.length }, m.set s.arr (writeAt ((m[s.arr]?).getD []) (s.off + s.len) xs), ?_, ?_, ?_, .inl ⟨rfl, hn, rfl⟩⟩
    · intro p
      unfold SGo.append
      simp only [if_pos hn]
    · refine ⟨⟨writeAt a (s.off + s.len) xs, ?_, ?_, ?_⟩, hn⟩
      · rw [h1]
        exact List.getElem?_set_self h.lt
      · show s.off + s.cap ≤ _
        unfold writeAt
        simp only [List.length_append, List.length_take, List.length_drop]
        omega
      · show ((writeAt a (s.off + s.len) xs).drop s.off).take (s.len + xs.length) = l ++ xs
        unfold writeAt
        rw [List.append_assoc, List.drop_append_of_le_length (by rw [List.length_take]; omega)]
        have e : (a.take (s.off + s.len)).drop s.off = l := by
          rw [List.drop_take, ← h3]
          congr 1
          omega
        rw [e, ← List.append_assoc, List.take_append_of_le_length (by rw [List.length_append]; omega), List.take_of_length_le (by rw [List.length_append]; omega)]
    · refine ⟨by rw [List.length_set]; exact Nat.le_refl _, fun j hj ha => ?_⟩
      rw [List.getElem?_set_ne]
      intro e
      exact ha (by simp [e])
  · refine ⟨⟨m.length, 0, s.len + xs.length, max (s.len + xs.length) (grow s.cap (s.len + xs.length))⟩,
      m ++ [SGo.view m s ++ xs ++ List.replicate (max (s.len + xs.length) (grow s.cap (s.len + xs.length)) - (s.len + xs.length)) zero],
      ?_, ?_, ?_, .inr ⟨rfl, by omega, rfl⟩⟩
    · intro p
      unfold SGo.append
      simp only [if_neg hn]
    · rw [h.view]
      refine ⟨⟨_, List.getElem?_concat_length, ?_, ?_⟩, ?_⟩
      · show 0 + max _ _ ≤ _
        simp only [List.length_append, List.length_replicate]
        omega
      · show List.take (s.len + xs.length) (List.drop 0 _) = _
        rw [List.drop_zero, List.take_append_of_le_length (by rw [List.length_append]; omega), List.take_of_length_le (by rw [List.length_append]; omega)]
      · show s.len + xs.length ≤ max _ _
        omega
    · refine ⟨by simp, fun j hj _ => ?_⟩
      rw [List.getElem?_append_left hj]

end SGo

namespace SCentroid

variable [GoFloat F]

/-- The centroid `c` of slices is the centroid `C` of lists. -/
structure RepC (m : Mem F) (c : SCentroid F) (C : Centroid F) : Prop where
  vec : c.vec = C.vec
  knn : c.knn = C.knn
  kfn : c.kfn = C.kfn
  dps : Rep m c.dps C.dps

theorem RepC.frame {m m' : Mem F} {A : List Nat} {c : SCentroid F} {C : Centroid F} (h : RepC m c C) (hf : Frame m m' A)
    (ha : c.dps.arr ∉ A) : RepC m' c C := ⟨h.vec, h.knn, h.kfn, h.dps.frame hf ha⟩

/-- What an operation on a centroid that starts in `m` leaves: the centroid it should be, and nothing else changed. -/
structure Step (m m' : Mem F) (A : List Nat) (c : SCentroid F) (C : Centroid F) : Prop where
  rep : RepC m' c C
  frame : Frame m m' A
  own : Own m A c.dps.arr

theorem Step.refl {m : Mem F} {c : SCentroid F} {C : Centroid F} (h : RepC m c C) : Step m m [c.dps.arr] c C :=
  ⟨h, Frame.refl _ _, .inl (by simp)⟩

theorem Step.trans {m m' m'' : Mem F} {A : List Nat} {c c' : SCentroid F} {C C' : Centroid F} (h : Step m m' A c C)
    (h' : Step m' m'' [c.dps.arr] c' C') : Step m m'' A c' C' :=
  ⟨h'.rep, h.frame.trans h'.frame (by simpa using h.own), h'.own.trans h.frame.le (by simpa using h.own)⟩

theorem refines_rm (grow : Nat → Nat → Nat) {m : Mem F} {c : SCentroid F} {C : Centroid F} (h : RepC m c C) (i : Nat) :
    Refines m (rm grow c i) (C.rm i) (fun m' c' C' => Step m m' [c.dps.arr] c' C') := by
  have hl := h.dps.length
  unfold Centroid.rm
  cases hd : C.dps[i]? with
  | none =>
    have hi : C.dps.length ≤ i := List.getElem?_eq_none_iff.1 hd
    intro p
    simp only [Go.panic]
    unfold rm rmVec
    by_cases h1 : 1 < c.dps.len
    · rw [if_pos h1]
      simp only [Bind.bind, StateT.bind, Except.bind, SGo.read, h.dps.view, hd]
    · rw [if_neg h1]
      simp only [Bind.bind, StateT.bind, Except.bind, Pure.pure, StateT.pure, Except.pure, SGo.sliceTo]
      by_cases h2 : i ≤ c.dps.cap
      · simp only [if_pos h2, SGo.sliceFrom, if_neg (show ¬ i + 1 ≤ c.dps.len by omega), Pure.pure, StateT.pure, Except.pure, SGo.lift, Go.panic]
      · simp only [if_neg h2, SGo.lift, Go.panic]
  | some d =>
    have hi : i < C.dps.length := (List.getElem?_eq_some_iff.1 hd).1
    obtain ⟨a1, a2⟩ := det_sliceTo h.dps (show i ≤ C.dps.length by omega)
    obtain ⟨b1, b2⟩ := det_sliceFrom h.dps (show i + 1 ≤ C.dps.length by omega)
    obtain ⟨s', m', c1, c2, c3, c4⟩ := det_append grow a2 (C.dps.drop (i + 1))
    have hv : Det m (rmVec c i) (if 1 < C.dps.length then
        vecDivScalar (vecSub (vecMulScalar C.vec (ofNat C.dps.length)) d.vec).1 (ofNat (C.dps.length - 1)) else C.vec) m := by
      unfold rmVec
      rw [hl]
      by_cases h1 : 1 < c.dps.len
      · rw [if_pos h1, if_pos h1, ← h.vec]
        exact (det_read h.dps hd).bind (Det.pure _ _)
      · rw [if_neg h1, if_neg h1, ← h.vec]
        exact Det.pure _ _
    refine Det.refines (hv.bind (a1.bind (b1.bind ((det_load b2).bind (c1.bind (Det.pure _ _)))))) ⟨⟨rfl, h.knn, h.kfn, ?_⟩, c3, ?_⟩
    · show Rep m' s' (C.dps.eraseIdx i)
      rw [List.eraseIdx_eq_take_drop_succ]
      exact c2
    · rcases c4 with c4 | c4
      · exact .inl (by simp [c4.1])
      · exact .inr (by show m.length ≤ s'.arr; omega)

theorem refines_addRaw (grow : Nat → Nat → Nat) {m : Mem F} {c : SCentroid F} {C : Centroid F} (h : RepC m c C) (d : DataPoint F) :
    ∃ c' m', Det m (addRaw grow c d) c' m' ∧ Step m m' [c.dps.arr] c' (C.addRaw d) := by
  have hl := h.dps.length
  obtain ⟨s', m', c1, c2, c3, c4⟩ := det_append grow h.dps [d]
  refine ⟨_, m', c1.bind (Det.pure _ _), ⟨?_, h.knn, h.kfn, c2⟩, c3, ?_⟩
  · simp only [Centroid.addRaw, hl, h.vec]
  · rcases c4 with c4 | c4
    · exact .inl (by simp [c4.1])
    · exact .inr (by show m.length ≤ s'.arr; omega)

theorem refines_addDataPoint (grow : Nat → Nat → Nat) (tk : Nat → Int) {m : Mem F} {c : SCentroid F} {C : Centroid F} (h : RepC m c C)
    (d : DataPoint F) :
    Refines m (addDataPoint grow tk c d) (C.addDataPoint tk d) (fun m' r R => r.1 = R.1 ∧ Step m m' [c.dps.arr] r.2 R.2) := by
  unfold addDataPoint Centroid.addDataPoint
  rw [h.vec]
  by_cases h1 : d.vec.length ≠ C.vec.length
  · rw [if_pos h1, if_pos h1]
    exact Refines.pure ⟨rfl, Step.refl h⟩
  · rw [if_neg h1, if_neg h1]
    refine Refines.lift_bind (fun e => ?_)
    cases e with
    | true => exact Refines.pure ⟨rfl, Step.refl h⟩
    | false =>
      obtain ⟨c', m', h2, h3⟩ := refines_addRaw grow h d
      exact Det.refines (h2.bind (Det.pure _ _)) ⟨rfl, h3⟩

theorem refines_skipExpired (grow : Nat → Nat → Nat) (tk : Nat → Int) (i : Nat) : ∀ (fuel : Nat) {m : Mem F} {c : SCentroid F}
    {C : Centroid F}, RepC m c C →
    Refines m (skipExpired grow tk i fuel c) (C.skipExpired tk i fuel) (fun m' c' C' => Step m m' [c.dps.arr] c' C')
  | 0, _, _, _, h => Refines.pure (Step.refl h)
  | fuel + 1, m, c, C, h => by
    unfold skipExpired Centroid.skipExpired
    rw [← h.dps.length]
    cases hd : C.dps[i]? with
    | none =>
      rw [if_neg (by have := List.getElem?_eq_none_iff.1 hd; omega)]
      exact Refines.pure (Step.refl h)
    | some d =>
      rw [if_pos (List.getElem?_eq_some_iff.1 hd).1]
      refine (det_read h.dps hd).refines_bind (Refines.lift_bind (fun e => ?_))
      cases e with
      | true =>
        refine (refines_rm grow h i).bind (fun m' c' C' h' => ?_)
        exact (refines_skipExpired grow tk i fuel h'.rep).mono (fun _ _ _ h2 => h'.trans h2)
      | false => exact Refines.pure (Step.refl h)

theorem refines_genNext (grow : Nat → Nat → Nat) (tk : Nat → Int) {m : Mem F} {c : SCentroid F} {C : Centroid F} (h : RepC m c C) (i : Nat) :
    Refines m (genNext grow tk c i) (C.genNext tk i) (fun m' r R => r.1 = R.1 ∧ r.2.2 = R.2.2 ∧ Step m m' [c.dps.arr] r.2.1 R.2.1) := by
  unfold genNext Centroid.genNext
  rw [← h.dps.length]
  refine (refines_skipExpired grow tk i _ h).bind (fun m' c' C' h' => ?_)
  rw [← h'.rep.dps.length]
  cases hd : C'.dps[i]? with
  | none =>
    rw [if_neg (by have := List.getElem?_eq_none_iff.1 hd; omega)]
    exact Refines.pure ⟨rfl, rfl, h'⟩
  | some d =>
    rw [if_pos (List.getElem?_eq_some_iff.1 hd).1]
    exact (det_read h'.rep.dps hd).refines_bind (Refines.pure ⟨rfl, rfl, h'⟩)

theorem refines_genAll (grow : Nat → Nat → Nat) (tk : Nat → Int) : ∀ (fuel : Nat) {m : Mem F} {c : SCentroid F} {C : Centroid F} (i : Nat),
    RepC m c C → Refines m (genAll grow tk fuel c i) (Centroid.genAll tk fuel C i) (fun m' r R => r.1 = R.1 ∧ Step m m' [c.dps.arr] r.2 R.2)
  | 0, _, _, _, _, h => Refines.pure ⟨rfl, Step.refl h⟩
  | fuel + 1, m, c, C, i, h => by
    unfold genAll Centroid.genAll
    refine (refines_genNext grow tk h i).bind (fun m' r R h' => ?_)
    obtain ⟨h1, h2, h3⟩ := h'
    rw [h1, h2]
    cases R.1 with
    | none => exact Refines.pure ⟨rfl, h3⟩
    | some v =>
      refine (refines_genAll grow tk fuel R.2.2 h3.rep).bind (fun m'' q Q h4 => ?_)
      exact Refines.pure ⟨by simp only [h4.1], h3.trans h4.2⟩

/-- A centroid and a result that is being filled. -/
structure Both (m m' : Mem F) (c : SCentroid F) (res : Slice) (c' : SCentroid F) (C' : Centroid F) (res' : Slice) (l : List (DataPoint F)) : Prop where
  rep : RepC m' c' C'
  repRes : Rep m' res' l
  ne : c'.dps.arr ≠ res'.arr
  frame : Frame m m' [c.dps.arr, res.arr]
  own : Own m [c.dps.arr] c'.dps.arr
  ownRes : Own m [res.arr] res'.arr

theorem Both.refl {m : Mem F} {c : SCentroid F} {C : Centroid F} {res : Slice} {l : List (DataPoint F)} (h : RepC m c C) (hr : Rep m res l)
    (hne : c.dps.arr ≠ res.arr) : Both m m c res c C res l := ⟨h, hr, hne, Frame.refl _ _, .inl (by simp), .inl (by simp)⟩

theorem Both.trans {m m' m'' : Mem F} {c c' c'' : SCentroid F} {C' C'' : Centroid F} {res res' res'' : Slice} {l l' : List (DataPoint F)}
    (h : Both m m' c res c' C' res' l) (h' : Both m' m'' c' res' c'' C'' res'' l') : Both m m'' c res c'' C'' res'' l' := by
  refine ⟨h'.rep, h'.repRes, h'.ne, h.frame.trans h'.frame ?_, h'.own.trans h.frame.le (by simpa using h.own),
    h'.ownRes.trans h.frame.le (by simpa using h.ownRes)⟩
  intro j hj
  simp only [List.mem_cons, List.not_mem_nil, or_false] at hj
  rcases hj with rfl | rfl
  · rcases h.own with h1 | h1
    · exact .inl (by simp at h1; simp [h1])
    · exact .inr h1
  · rcases h.ownRes with h1 | h1
    · exact .inl (by simp at h1; simp [h1])
    · exact .inr h1

/-- A step of the centroid. -/
theorem Both.step {m m' m'' : Mem F} {c c' c'' : SCentroid F} {C' C'' : Centroid F} {res res' : Slice} {l : List (DataPoint F)}
    (h : Both m m' c res c' C' res' l) (h' : Step m' m'' [c'.dps.arr] c'' C'') : Both m m'' c res c'' C'' res' l := by
  refine h.trans ⟨h'.rep, h.repRes.frame h'.frame (by simpa using fun e => h.ne e.symm), ?_, h'.frame.mono (by simp), h'.own, .inl (by simp)⟩
  rcases h'.own with h1 | h1
  · simp only [List.mem_singleton] at h1
    rw [h1]
    exact h.ne
  · have := h.repRes.lt
    omega

/-- An `append` to the result. -/
theorem Both.append (grow : Nat → Nat → Nat) {m m' : Mem F} {c c' : SCentroid F} {C' : Centroid F} {res res' : Slice} {l : List (DataPoint F)}
    (h : Both m m' c res c' C' res' l) (xs : List (DataPoint F)) : ∃ res'' m'', Det m' (SGo.append grow res' xs) res'' m'' ∧
      Both m m'' c res c' C' res'' (l ++ xs) := by
  obtain ⟨s', m'', c1, c2, c3, c4⟩ := det_append grow h.repRes xs
  refine ⟨s', m'', c1, h.trans ⟨h.rep.frame c3 (by simpa using h.ne), c2, ?_, c3.mono (by simp), .inl (by simp), ?_⟩⟩
  · rcases c4 with c4 | c4
    · rw [c4.1]; exact h.ne
    · have := h.rep.dps.lt
      omega
  · rcases c4 with c4 | c4
    · exact .inl (by simp [c4.1])
    · exact .inr (by omega)

theorem refines_drainUnorderedLoop (grow : Nat → Nat → Nat) (tk : Nat → Int) (n : Nat) : ∀ (fuel : Nat) {m : Mem F} {c : SCentroid F} {C : Centroid F}
    {res : Slice} {l : List (DataPoint F)}, RepC m c C → Rep m res l → c.dps.arr ≠ res.arr →
    Refines m (drainUnorderedLoop grow tk n fuel c res) (Centroid.drainUnorderedLoop tk n fuel C l)
      (fun m' r R => Both m m' c res r.2 R.2 r.1 R.1)
  | 0, _, _, _, _, _, h, hr, hne => Refines.pure (Both.refl h hr hne)
  | fuel + 1, m, c, C, res, l, h, hr, hne => by
    unfold drainUnorderedLoop Centroid.drainUnorderedLoop
    rw [← h.dps.length, ← hr.length]
    have h0 := Both.refl h hr hne
    cases hd : C.dps with
    | nil =>
      rw [if_neg (by simp)]
      exact Refines.pure h0
    | cons d ds =>
      simp only
      by_cases hn : l.length < n
      · rw [if_pos ⟨by simp, hn⟩, if_pos hn]
        have h1 : C.dps[0]? = some d := by rw [hd]; rfl
        refine (det_read h.dps h1).refines_bind (Refines.lift_bind (fun e => ?_))
        cases e with
        | true =>
          refine (refines_rm grow h 0).bind (fun m' c' C' h' => ?_)
          have h2 := h0.step h'
          exact (refines_drainUnorderedLoop grow tk n fuel h2.rep h2.repRes h2.ne).mono (fun _ _ _ h3 => h2.trans h3)
        | false =>
          obtain ⟨res', m1, e1, e2⟩ := h0.append grow [d]
          refine (det_read h.dps h1).refines_bind (e1.refines_bind ?_)
          refine (refines_rm grow e2.rep 0).bind (fun m' c' C' h' => ?_)
          have h2 := e2.step h'
          exact (refines_drainUnorderedLoop grow tk n fuel h2.rep h2.repRes h2.ne).mono (fun _ _ _ h3 => h2.trans h3)
      · rw [if_neg (fun h => hn h.2), if_neg hn]
        exact Refines.pure h0

/-- An operation that gives an answer: the answer is in a new array. -/
structure StepA (m m' : Mem F) (A : List Nat) (c : SCentroid F) (C : Centroid F) (res : Slice) (l : List (DataPoint F)) : Prop where
  step : Step m m' A c C
  repRes : Rep m' res l
  ne : c.dps.arr ≠ res.arr
  fresh : m.length ≤ res.arr

/-- After `make`. -/
theorem Both.answer {m m1 m' : Mem F} {c c' : SCentroid F} {C' : Centroid F} {s res' : Slice} {l : List (DataPoint F)} (hf : Frame m m1 [])
    (hs : s.arr = m.length) (h : Both m1 m' c s c' C' res' l) : StepA m m' [c.dps.arr] c' C' res' l := by
  refine ⟨⟨h.rep, (hf.mono (by simp)).trans h.frame ?_, ?_⟩, h.repRes, h.ne, ?_⟩
  · intro j hj
    simp only [List.mem_cons, List.not_mem_nil, or_false] at hj
    rcases hj with rfl | rfl
    · exact .inl (by simp)
    · exact .inr (by omega)
  · rcases h.own with h1 | h1
    · exact .inl h1
    · exact .inr (Nat.le_trans hf.le h1)
  · rcases h.ownRes with h1 | h1
    · simp only [List.mem_singleton] at h1
      omega
    · exact Nat.le_trans hf.le h1

theorem refines_drainUnordered (grow : Nat → Nat → Nat) (tk : Nat → Int) {m : Mem F} {c : SCentroid F} {C : Centroid F} (h : RepC m c C) (n : Int) :
    Refines m (drainUnordered grow tk c n) (C.drainUnordered tk n) (fun m' r R => StepA m m' [c.dps.arr] r.2 R.2 r.1 R.1) := by
  unfold drainUnordered Centroid.drainUnordered
  refine Refines.lift_bind (fun _ => ?_)
  obtain ⟨s, m1, h1, h2, h3, h4, _, _⟩ := det_make m n.toNat
  refine h1.refines_bind ?_
  rw [← h.dps.length]
  have hne : c.dps.arr ≠ s.arr := by have := h.dps.lt; omega
  exact (refines_drainUnorderedLoop grow tk n.toNat _ (h.frame h3 (by simp)) h2 hne).mono (fun _ _ _ h5 => h5.answer h3 h4)

theorem refines_rmAll (grow : Nat → Nat → Nat) : ∀ (is : List Nat) {m : Mem F} {c : SCentroid F} {C : Centroid F}, RepC m c C →
    Refines m (rmAll grow is c) (Centroid.rmAll is C) (fun m' c' C' => Step m m' [c.dps.arr] c' C')
  | [], _, _, _, h => Refines.pure (Step.refl h)
  | i :: is, m, c, C, h => by
    unfold rmAll Centroid.rmAll
    refine (refines_rm grow h i).bind (fun m' c' C' h' => ?_)
    exact (refines_rmAll grow is h'.rep).mono (fun _ _ _ h2 => h'.trans h2)

theorem refines_collect (grow : Nat → Nat → Nat) : ∀ (is : List Nat) {m : Mem F} {c : SCentroid F} {C : Centroid F} {res : Slice}
    {l : List (DataPoint F)}, RepC m c C → Rep m res l → c.dps.arr ≠ res.arr →
    Refines m (collect grow c is res) (Centroid.getAll is C) (fun m' r ds => Both m m' c res c C r (l ++ ds))
  | [], _, _, _, _, l, h, hr, hne => Refines.pure (by rw [List.append_nil]; exact Both.refl h hr hne)
  | i :: is, m, c, C, res, l, h, hr, hne => by
    unfold collect Centroid.getAll
    cases hd : C.dps[i]? with
    | none =>
      intro p
      simp only [Bind.bind, StateT.bind, Except.bind, Go.idx, hd, Go.panic, SGo.read, h.dps.view]
    | some d =>
      have e : (Go.idx C.dps i : Go (DataPoint F)) = pure d := by unfold Go.idx; rw [hd]
      rw [e]
      show Refines m _ (Centroid.getAll is C >>= fun ds => pure (d :: ds)) _
      obtain ⟨res', m1, e1, e2⟩ := (Both.refl h hr hne).append grow [d]
      refine (det_read h.dps hd).refines_bind (e1.refines_bind ?_)
      have key := refines_collect grow is e2.rep e2.repRes e2.ne
      have := key.bind (f := fun a => (pure a : SGo F Slice)) (g := fun ds => (pure (d :: ds) : Go _))
        (S := fun m' r ds => Both m m' c res c C r (l ++ ds)) (fun m' a b hb => Refines.pure (by
          have := e2.trans hb
          rwa [List.append_assoc] at this))
      intro p
      have h9 := this p
      have e9 : (collect grow c is res' >>= fun a => (pure a : SGo F Slice)) m1 p = collect grow c is res' m1 p := by
        simp only [Bind.bind, StateT.bind, Except.bind, Pure.pure, StateT.pure, Except.pure]
        cases collect grow c is res' m1 p <;> rfl
      rw [e9] at h9
      exact h9

theorem refines_drainOrdered (grow : Nat → Nat → Nat) (tk : Nat → Int) {m : Mem F} {c : SCentroid F} {C : Centroid F} (h : RepC m c C) (n : Int) :
    Refines m (drainOrdered grow tk c n) (C.drainOrdered tk n) (fun m' r R => StepA m m' [c.dps.arr] r.2 R.2 r.1 R.1) := by
  unfold drainOrdered Centroid.drainOrdered
  refine Refines.lift_bind (fun _ => ?_)
  obtain ⟨s, m1, h1, h2, h3, h4, _, _⟩ := det_make m n.toNat
  refine h1.refines_bind ?_
  rw [← h.dps.length, h.vec, h.kfn]
  have hne : c.dps.arr ≠ s.arr := by have := h.dps.lt; omega
  have h0 := Both.refl (h.frame h3 (by simp)) h2 hne
  refine (refines_genAll grow tk _ 0 h0.rep).bind (fun m2 g G h5 => ?_)
  have h6 := h0.step h5.2
  rw [h5.1]
  refine Refines.lift_bind (fun indexes => ?_)
  refine (refines_collect grow indexes h6.rep h6.repRes h6.ne).bind (fun m3 r ds h7 => ?_)
  have h8 := h6.trans h7
  refine (refines_rmAll grow _ h8.rep).bind (fun m4 c' C' h9 => ?_)
  exact Refines.pure ((h8.step h9).answer h3 h4)

theorem refines_knnLookup (grow : Nat → Nat → Nat) (tk : Nat → Int) {m : Mem F} {c : SCentroid F} {C : Centroid F} (h : RepC m c C)
    (v : List F) (k : Int) (drain : Bool) :
    Refines m (knnLookup grow tk c v k drain) (C.knnLookup tk v k drain) (fun m' r R => StepA m m' [c.dps.arr] r.2 R.2 r.1 R.1) := by
  unfold knnLookup Centroid.knnLookup
  refine Refines.lift_bind (fun _ => ?_)
  obtain ⟨s, m1, h1, h2, h3, h4, _, _⟩ := det_make m k.toNat
  refine h1.refines_bind ?_
  rw [← h.dps.length, h.knn]
  have hne : c.dps.arr ≠ s.arr := by have := h.dps.lt; omega
  have h0 := Both.refl (h.frame h3 (by simp)) h2 hne
  refine (refines_genAll grow tk _ 0 h0.rep).bind (fun m2 g G h5 => ?_)
  have h6 := h0.step h5.2
  rw [h5.1]
  refine Refines.lift_bind (fun indexes => ?_)
  refine (refines_collect grow indexes h6.rep h6.repRes h6.ne).bind (fun m3 r ds h7 => ?_)
  have h8 := h6.trans h7
  cases drain with
  | true =>
    refine (refines_rmAll grow _ h8.rep).bind (fun m4 c' C' h9 => ?_)
    exact Refines.pure ((h8.step h9).answer h3 h4)
  | false => exact Refines.pure (h8.answer h3 h4)

theorem refines_expireLoop (grow : Nat → Nat → Nat) (tk : Nat → Int) : ∀ (fuel i : Nat) {m : Mem F} {c : SCentroid F} {C : Centroid F}, RepC m c C →
    Refines m (expireLoop grow tk fuel i c) (Centroid.expireLoop tk fuel i C) (fun m' c' C' => Step m m' [c.dps.arr] c' C')
  | 0, _, _, _, _, h => Refines.pure (Step.refl h)
  | fuel + 1, i, m, c, C, h => by
    unfold expireLoop Centroid.expireLoop
    rw [← h.dps.length]
    cases hd : C.dps[i]? with
    | none =>
      rw [if_neg (by have := List.getElem?_eq_none_iff.1 hd; omega)]
      exact Refines.pure (Step.refl h)
    | some d =>
      rw [if_pos (List.getElem?_eq_some_iff.1 hd).1]
      refine (det_read h.dps hd).refines_bind (Refines.lift_bind (fun e => ?_))
      cases e with
      | true =>
        refine (refines_rm grow h i).bind (fun m' c' C' h' => ?_)
        exact (refines_expireLoop grow tk fuel i h'.rep).mono (fun _ _ _ h2 => h'.trans h2)
      | false => exact refines_expireLoop grow tk fuel (i + 1) h

theorem refines_expire (grow : Nat → Nat → Nat) (tk : Nat → Int) {m : Mem F} {c : SCentroid F} {C : Centroid F} (h : RepC m c C) :
    Refines m (expire grow tk c) (C.expire tk) (fun m' c' C' => Step m m' [c.dps.arr] c' C') := by
  unfold expire Centroid.expire
  rw [← h.dps.length]
  exact refines_expireLoop grow tk _ 0 h

theorem refines_memTrimLoop (grow : Nat → Nat → Nat) (tk : Nat → Int) : ∀ (fuel : Nat) {m : Mem F} {c : SCentroid F} {C : Centroid F}
    {acc : Slice} {l : List (DataPoint F)}, RepC m c C → Rep m acc l → c.dps.arr ≠ acc.arr →
    Refines m (memTrimLoop grow tk fuel c acc) (Centroid.memTrimLoop tk fuel C l)
      (fun m' r R => Both m m' c acc r.2 R.2 r.1 R.1)
  | 0, _, _, _, _, _, h, hr, hne => Refines.pure (Both.refl h hr hne)
  | fuel + 1, m, c, C, acc, l, h, hr, hne => by
    unfold memTrimLoop Centroid.memTrimLoop
    rw [← h.dps.length]
    have h0 := Both.refl h hr hne
    by_cases hn : 0 < C.dps.length
    · rw [if_pos hn, if_pos hn]
      refine (refines_drainUnordered grow tk h 1).bind (fun m1 r R h1 => ?_)
      have h2 := h0.step h1.step
      obtain ⟨acc', m2, e1, e2⟩ := h2.append grow R.1
      refine (det_load h1.repRes).refines_bind (e1.refines_bind ?_)
      exact (refines_memTrimLoop grow tk fuel e2.rep e2.repRes e2.ne).mono (fun _ _ _ h3 => e2.trans h3)
    · rw [if_neg hn, if_neg hn]
      exact Refines.pure h0

theorem refines_memTrim (grow : Nat → Nat → Nat) (tk : Nat → Int) {m : Mem F} {c : SCentroid F} {C : Centroid F} (h : RepC m c C) :
    Refines m (memTrim grow tk c) (C.memTrim tk) (fun m' c' C' => Step m m' [c.dps.arr] c' C') := by
  unfold memTrim Centroid.memTrim
  obtain ⟨s, m1, h1, h2, h3, h4, _, _⟩ := det_make m 0
  refine h1.refines_bind ?_
  rw [← h.dps.length]
  have hne : c.dps.arr ≠ s.arr := by have := h.dps.lt; omega
  refine (refines_memTrimLoop grow tk _ (h.frame h3 (by simp)) h2 hne).bind (fun m' r R h5 => ?_)
  have h6 := h5.answer h3 h4
  exact Refines.pure ⟨⟨h6.step.rep.vec, h6.step.rep.knn, h6.step.rep.kfn, h6.repRes⟩, h6.step.frame, .inr h6.fresh⟩

theorem refines_meanLoop (grow : Nat → Nat → Nat) (tk : Nat → Int) : ∀ (fuel : Nat) (res : List F) (n : F) {m : Mem F} {c : SCentroid F}
    {C : Centroid F} (i : Nat), RepC m c C →
    Refines m (meanLoop grow tk fuel res n c i) (Centroid.meanLoop tk fuel res n C i) (fun m' r R => r.1 = R.1 ∧ Step m m' [c.dps.arr] r.2 R.2)
  | 0, _, _, _, _, _, _, h => Refines.pure ⟨rfl, Step.refl h⟩
  | fuel + 1, res, n, m, c, C, i, h => by
    unfold meanLoop Centroid.meanLoop
    refine (refines_genNext grow tk h i).bind (fun m' r R h' => ?_)
    obtain ⟨h1, h2, h3⟩ := h'
    rw [h1, h2]
    cases R.1 with
    | none => exact Refines.pure ⟨rfl, h3⟩
    | some v =>
      simp only
      by_cases hl : v.length ≠ res.length
      · rw [if_pos hl, if_pos hl]
        exact Refines.pure ⟨rfl, h3⟩
      · rw [if_neg hl, if_neg hl]
        exact (refines_meanLoop grow tk fuel _ _ R.2.2 h3.rep).mono (fun _ _ _ h4 => ⟨h4.1, h3.trans h4.2⟩)

theorem refines_moveVector (grow : Nat → Nat → Nat) (tk : Nat → Int) {m : Mem F} {c : SCentroid F} {C : Centroid F} (h : RepC m c C) :
    Refines m (moveVector grow tk c) (C.moveVector tk) (fun m' r R => r.1 = R.1 ∧ Step m m' [c.dps.arr] r.2 R.2) := by
  unfold moveVector Centroid.moveVector
  refine (refines_genNext grow tk h 0).bind (fun m' r R h' => ?_)
  obtain ⟨h1, h2, h3⟩ := h'
  rw [h1, h2]
  cases R.1 with
  | none => exact Refines.pure ⟨rfl, h3⟩
  | some v =>
    simp only
    rw [← h3.rep.dps.length]
    refine (refines_meanLoop grow tk _ _ _ R.2.2 h3.rep).bind (fun m'' q Q h4 => ?_)
    have h5 := h3.trans h4.2
    rw [h4.1]
    cases Q.1.2 with
    | true => exact Refines.pure ⟨rfl, ⟨rfl, h5.rep.knn, h5.rep.kfn, h5.rep.dps⟩, h5.frame, h5.own⟩
    | false => exact Refines.pure ⟨rfl, h5⟩

end SCentroid
end Trypo
