import Verif.Proofs.Slice

/-!
# Several centroids and the answers they gave: nobody writes into the array of another
-/

namespace Trypo
open GoFloat SGo SCentroid Spec

set_option linter.unusedSectionVars false

variable {F : Type} [GoFloat F]

namespace SCentroid

/-- The centroids `cs` of slices are the centroids `CS` of lists, and no two share an array. -/
structure Heap (m : Mem F) (cs : List (SCentroid F)) (CS : List (Centroid F)) : Prop where
  len : cs.length = CS.length
  rep : ∀ (i : Nat) (c : SCentroid F) (C : Centroid F), cs[i]? = some c → CS[i]? = some C → RepC m c C
  sep : ∀ (i j : Nat) (c d : SCentroid F), cs[i]? = some c → cs[j]? = some d → i ≠ j → c.dps.arr ≠ d.dps.arr

/-- The slices in `K` hold what they should, and share no array with a centroid. -/
def Keep (m : Mem F) (cs : List (SCentroid F)) (K : List (Slice × List (DataPoint F))) : Prop :=
  ∀ q ∈ K, Rep m q.1 q.2 ∧ ∀ c ∈ cs, c.dps.arr ≠ q.1.arr

theorem Heap.partner {m : Mem F} {cs : List (SCentroid F)} {CS : List (Centroid F)} (h : Heap m cs CS) {i : Nat} {c : SCentroid F}
    (hc : cs[i]? = some c) : ∃ C, CS[i]? = some C ∧ RepC m c C := by
  have hi : i < CS.length := by rw [← h.len]; exact (List.getElem?_eq_some_iff.1 hc).1
  exact ⟨CS[i], List.getElem?_eq_getElem hi, h.rep i c _ hc (List.getElem?_eq_getElem hi)⟩

theorem Heap.lt {m : Mem F} {cs : List (SCentroid F)} {CS : List (Centroid F)} (h : Heap m cs CS) {i : Nat} {c : SCentroid F}
    (hc : cs[i]? = some c) : c.dps.arr < m.length := by
  obtain ⟨C, _, h2⟩ := h.partner hc
  exact h2.dps.lt

theorem Heap.set {m m' : Mem F} {cs : List (SCentroid F)} {CS : List (Centroid F)} (h : Heap m cs CS) {i : Nat} {c c' : SCentroid F}
    {C' : Centroid F} (hc : cs[i]? = some c) (hs : Step m m' [c.dps.arr] c' C') : Heap m' (cs.set i c') (CS.set i C') := by
  have hi : i < cs.length := (List.getElem?_eq_some_iff.1 hc).1
  have key : ∀ (j : Nat) (d : SCentroid F), cs[j]? = some d → i ≠ j → c'.dps.arr ≠ d.dps.arr := by
    intro j d hd hij e
    rcases hs.own with h1 | h1
    · simp only [List.mem_singleton] at h1
      exact h.sep i j c d hc hd hij (by rw [← h1, e])
    · have := h.lt hd
      omega
  refine ⟨by rw [List.length_set, List.length_set, h.len], fun j d D hd hD => ?_, fun j k d e hd he hjk => ?_⟩
  · by_cases hij : i = j
    · subst hij
      rw [List.getElem?_set_self hi] at hd
      rw [List.getElem?_set_self (by rw [← h.len]; exact hi)] at hD
      cases hd; cases hD
      exact hs.rep
    · rw [List.getElem?_set_ne hij] at hd hD
      exact (h.rep j d D hd hD).frame hs.frame (by simpa using fun e => h.sep i j c d hc hd hij e.symm)
  · by_cases hij : i = j
    · subst hij
      rw [List.getElem?_set_self hi] at hd
      rw [List.getElem?_set_ne hjk] at he
      cases hd
      exact key k e he hjk
    · rw [List.getElem?_set_ne hij] at hd
      by_cases hik : i = k
      · subst hik
        rw [List.getElem?_set_self hi] at he
        cases he
        exact fun e => key j d hd hij e.symm
      · rw [List.getElem?_set_ne hik] at he
        exact h.sep j k d e hd he hjk

theorem Keep.set {m m' : Mem F} {cs : List (SCentroid F)} {K : List (Slice × List (DataPoint F))} (h : Keep m cs K) {i : Nat} {c c' : SCentroid F}
    {C' : Centroid F} (hc : cs[i]? = some c) (hs : Step m m' [c.dps.arr] c' C') : Keep m' (cs.set i c') K := by
  intro q hq
  obtain ⟨h1, h2⟩ := h q hq
  have hcm : c ∈ cs := List.mem_of_getElem? hc
  refine ⟨h1.frame hs.frame (by simpa using fun e => h2 c hcm e.symm), fun d hd => ?_⟩
  rcases List.mem_or_eq_of_mem_set hd with hd | rfl
  · exact h2 d hd
  · rcases hs.own with h3 | h3
    · simp only [List.mem_singleton] at h3
      rw [h3]
      exact h2 c hcm
    · have := h1.lt
      omega

/-- A new answer. -/
theorem Keep.cons {m : Mem F} {cs : List (SCentroid F)} {K : List (Slice × List (DataPoint F))} (h : Keep m cs K) {s : Slice}
    {l : List (DataPoint F)} (hs : Rep m s l) (hn : ∀ c ∈ cs, c.dps.arr ≠ s.arr) : Keep m cs (K ++ [(s, l)]) := by
  intro q hq
  rcases List.mem_append.1 hq with hq | hq
  · exact h q hq
  · simp only [List.mem_singleton] at hq
    subst hq
    exact ⟨hs, hn⟩

/-- A new centroid. -/
theorem Heap.push {m : Mem F} {cs : List (SCentroid F)} {CS : List (Centroid F)} (h : Heap m cs CS) {c : SCentroid F}
    {C : Centroid F} (hc : RepC m c C) (hn : ∀ d ∈ cs, d.dps.arr ≠ c.dps.arr) : Heap m (cs ++ [c]) (CS ++ [C]) := by
  have key : ∀ (i : Nat) (d : SCentroid F), (cs ++ [c])[i]? = some d → cs[i]? = some d ∧ i < cs.length ∨ i = cs.length ∧ d = c := by
    intro i d hd
    by_cases hi : i < cs.length
    · rw [List.getElem?_append_left hi] at hd
      exact .inl ⟨hd, hi⟩
    · rw [List.getElem?_append_right (by omega)] at hd
      have h0 : i - cs.length = 0 := by
        have := (List.getElem?_eq_some_iff.1 hd).1
        simp at this; omega
      rw [h0] at hd
      simp at hd
      exact .inr ⟨by omega, hd.symm⟩
  refine ⟨by simp [h.len], fun i d D hd hD => ?_, fun i j d e hd he hij => ?_⟩
  · rcases key i d hd with ⟨h1, h2⟩ | ⟨h1, h2⟩
    · rw [List.getElem?_append_left (by rw [← h.len]; exact h2)] at hD
      exact h.rep i d D h1 hD
    · rw [h1, h.len, List.getElem?_concat_length] at hD
      cases hD
      rw [h2]
      exact hc
  · rcases key i d hd with ⟨h1, h2⟩ | ⟨h1, h2⟩
    · rcases key j e he with ⟨h3, h4⟩ | ⟨h3, h4⟩
      · exact h.sep i j d e h1 h3 hij
      · rw [h4]
        exact hn d (List.mem_of_getElem? h1)
    · rcases key j e he with ⟨h3, h4⟩ | ⟨h3, h4⟩
      · rw [h2]
        exact fun x => hn e (List.mem_of_getElem? h3) x.symm
      · omega

theorem Heap.frame_nil {m m' : Mem F} {cs : List (SCentroid F)} {CS : List (Centroid F)} (h : Heap m cs CS) (hf : Frame m m' []) : Heap m' cs CS :=
  ⟨h.len, fun i c C hc hC => (h.rep i c C hc hC).frame hf (by simp), h.sep⟩

theorem Keep.frame_nil {m m' : Mem F} {cs : List (SCentroid F)} {K : List (Slice × List (DataPoint F))} (h : Keep m cs K) (hf : Frame m m' []) :
    Keep m' cs K := fun q hq => ⟨(h q hq).1.frame hf (by simp), (h q hq).2⟩

theorem receiverVecs_eq {m : Mem F} {cs : List (SCentroid F)} {CS : List (Centroid F)} (h : Heap m cs CS) (rs : List Nat) :
    receiverVecs cs rs = Centroid.receiverVecs CS rs := by
  unfold receiverVecs Centroid.receiverVecs
  refine List.map_congr_left (fun r _ => ?_)
  cases hc : cs[r]? with
  | none =>
    have : CS[r]? = none := by rw [List.getElem?_eq_none_iff, ← h.len]; exact List.getElem?_eq_none_iff.1 hc
    rw [this]
  | some c =>
    obtain ⟨C, h1, h2⟩ := h.partner hc
    rw [h1]
    exact h2.vec

theorem refines_idx {m : Mem F} {cs : List (SCentroid F)} {CS : List (Centroid F)} (h : Heap m cs CS) (i : Nat) :
    Refines m (SGo.lift (Go.idx cs i)) (Go.idx CS i) (fun m' c C => m' = m ∧ cs[i]? = some c ∧ RepC m c C) := by
  intro p
  cases hc : cs[i]? with
  | none =>
    have : CS[i]? = none := by rw [List.getElem?_eq_none_iff, ← h.len]; exact List.getElem?_eq_none_iff.1 hc
    simp only [Go.idx, this, hc, Go.panic, SGo.lift]
  | some c =>
    obtain ⟨C, h1, h2⟩ := h.partner hc
    simp only [Go.idx, h1, hc, SGo.lift, Pure.pure, StateT.pure, Except.pure]
    exact ⟨c, m, rfl, rfl, rfl, h2⟩

theorem refines_distributeLoop (grow : Nat → Nat → Nat) (tk : Nat → Int) (self : Nat) (receivers : List Nat) {data : Slice} {l : List (DataPoint F)}
    {K : List (Slice × List (DataPoint F))} (hdata : (data, l) ∈ K) : ∀ (fuel j : Nat) {m : Mem F} {h : List (SCentroid F)} {H : List (Centroid F)},
    Heap m h H → Keep m h K → l.length ≤ j + fuel →
    Refines m (distributeLoop grow tk self receivers data fuel j h) (Centroid.distributeLoop tk self receivers (l.drop j) H)
      (fun m' h' H' => Heap m' h' H' ∧ Keep m' h' K)
  | 0, j, m, h, H, hh, hk, hf => by
    rw [List.drop_eq_nil_of_le (by omega)]
    exact Refines.pure ⟨hh, hk⟩
  | fuel + 1, j, m, h, H, hh, hk, hf => by
    have hd := (hk _ hdata).1
    simp only at hd
    unfold distributeLoop
    rw [← hd.length]
    by_cases hj : j < l.length
    · rw [if_pos hj, List.drop_eq_getElem_cons hj]
      unfold Centroid.distributeLoop
      refine (det_read hd (List.getElem?_eq_getElem hj)).refines_bind ?_
      refine (refines_idx hh self).bind (fun m1 c C h1 => ?_)
      obtain ⟨rfl, h2, h3⟩ := h1
      rw [h3.knn, receiverVecs_eq hh]
      refine Refines.lift_bind (fun indexes => ?_)
      cases indexes with
      | nil =>
        refine (refines_addDataPoint grow tk h3 _).bind (fun m2 r R h4 => ?_)
        exact refines_distributeLoop grow tk self receivers hdata fuel (j + 1) (hh.set h2 h4.2) (hk.set h2 h4.2) (by omega)
      | cons i is =>
        simp only
        refine Refines.lift_bind (fun rj => ?_)
        refine (refines_idx hh rj).bind (fun m2 rc RC h4 => ?_)
        obtain ⟨rfl, h5, h6⟩ := h4
        refine (refines_addDataPoint grow tk h6 _).bind (fun m3 a A h7 => ?_)
        have hh1 := hh.set h5 h7.2
        have hk1 := hk.set h5 h7.2
        rw [h7.1]
        cases A.1 with
        | true => exact refines_distributeLoop grow tk self receivers hdata fuel (j + 1) hh1 hk1 (by omega)
        | false =>
          refine (refines_idx hh1 self).bind (fun m4 c1 C1 h8 => ?_)
          obtain ⟨rfl, h9, h10⟩ := h8
          refine (refines_addDataPoint grow tk h10 _).bind (fun m5 b B h11 => ?_)
          exact refines_distributeLoop grow tk self receivers hdata fuel (j + 1) (hh1.set h9 h11.2) (hk1.set h9 h11.2) (by omega)
    · rw [if_neg hj, List.drop_eq_nil_of_le (by omega)]
      exact Refines.pure ⟨hh, hk⟩

theorem refines_distribute (grow : Nat → Nat → Nat) (tk : Nat → Int) {m : Mem F} {h : List (SCentroid F)} {H : List (Centroid F)}
    {K : List (Slice × List (DataPoint F))} (hh : Heap m h H) (hk : Keep m h K) (self : Nat) (n : Int) (receivers : List Nat) :
    Refines m (distribute grow tk h self n receivers) (Centroid.distribute tk H self n receivers) (fun m' h' H' => Heap m' h' H' ∧ Keep m' h' K) := by
  unfold distribute Centroid.distribute
  by_cases hr : receivers.length = 0
  · rw [if_pos hr, if_pos hr]
    exact Refines.pure ⟨hh, hk⟩
  · rw [if_neg hr, if_neg hr]
    refine (refines_idx hh self).bind (fun m1 c C h1 => ?_)
    obtain ⟨rfl, h2, h3⟩ := h1
    refine (refines_drainOrdered grow tk h3 n).bind (fun m2 r R h4 => ?_)
    have hk2 : Keep m2 (h.set self r.2) (K ++ [(r.1, R.1)]) := by
      refine (hk.set h2 h4.step).cons h4.repRes (fun d hd => ?_)
      rcases List.mem_or_eq_of_mem_set hd with hd | rfl
      · obtain ⟨i, hi⟩ := List.mem_iff_getElem?.1 hd
        have := hh.lt hi
        have := h4.fresh
        omega
      · exact h4.ne
    have := refines_distributeLoop grow tk self receivers (data := r.1) (l := R.1) (K := K ++ [(r.1, R.1)]) (by simp) r.1.len 0
      (hh.set h2 h4.step) hk2 (by rw [h4.repRes.length]; omega)
    rw [List.drop_zero] at this
    exact this.mono (fun _ _ _ h5 => ⟨h5.1, fun q hq => h5.2 q (List.mem_append_left _ hq)⟩)

end SCentroid

/-- The worlds of slices and of lists; besides, the slices in `K` hold what they should and are nobody else's. -/
structure Same (K : List (Slice × List (DataPoint F))) (m : Mem F) (w : SliceWorld F) (W : AnswerWorld F) : Prop where
  heap : Heap m w.cs W.cs
  len : w.answers.length = W.answers.length
  keep : Keep m w.cs (K ++ w.answers.zip W.answers)

theorem Same.read {m : Mem F} {w : SliceWorld F} {W : AnswerWorld F} {K : List (Slice × List (DataPoint F))} (h : Same K m w W) : w.read m = W := by
  unfold SliceWorld.read
  have e1 : w.cs.map (contents m) = W.cs := by
    refine List.ext_getElem? (fun i => ?_)
    rw [List.getElem?_map]
    cases hc : w.cs[i]? with
    | none =>
      have : W.cs[i]? = none := by rw [List.getElem?_eq_none_iff, ← h.heap.len]; exact List.getElem?_eq_none_iff.1 hc
      rw [this]
      rfl
    | some c =>
      obtain ⟨C, h1, h2⟩ := h.heap.partner hc
      rw [h1]
      simp only [Option.map_some, contents, h2.vec, h2.knn, h2.kfn, h2.dps.view]
  have e2 : w.answers.map (SGo.view m) = W.answers := by
    refine List.ext_getElem? (fun i => ?_)
    rw [List.getElem?_map]
    cases hc : w.answers[i]? with
    | none =>
      have : W.answers[i]? = none := by rw [List.getElem?_eq_none_iff, ← h.len]; exact List.getElem?_eq_none_iff.1 hc
      rw [this]
      rfl
    | some s =>
      have hi : i < W.answers.length := by rw [← h.len]; exact (List.getElem?_eq_some_iff.1 hc).1
      have := (h.keep (s, W.answers[i]) (List.mem_append_right _ (List.mem_iff_getElem?.2 ⟨i, by rw [List.getElem?_zip_eq_some]; exact ⟨hc, List.getElem?_eq_getElem hi⟩⟩))).1
      simp only at this
      rw [List.getElem?_eq_getElem hi, Option.map_some, this.view]
  rw [e1, e2]

/-- A call without an answer. -/
theorem refines_on_none {m : Mem F} {w : SliceWorld F} {W : AnswerWorld F} {K : List (Slice × List (DataPoint F))} (h : Same K m w W) (self : Nat)
    {f : SCentroid F → SGo F (List Slice × SCentroid F)} {g : Centroid F → Go (List (List (DataPoint F)) × Centroid F)}
    (hf : ∀ c C, RepC m c C → Refines m (f c) (g C) (fun m' r R => r.1 = [] ∧ R.1 = [] ∧ Step m m' [c.dps.arr] r.2 R.2)) :
    Refines m (w.on self f) (W.on self g) (Same K) := by
  unfold SliceWorld.on AnswerWorld.on
  cases hc : w.cs[self]? with
  | none =>
    have : W.cs[self]? = none := by rw [List.getElem?_eq_none_iff, ← h.heap.len]; exact List.getElem?_eq_none_iff.1 hc
    rw [this]
    exact Refines.pure h
  | some c =>
    obtain ⟨C, h1, h2⟩ := h.heap.partner hc
    rw [h1]
    refine (hf c C h2).bind (fun m' r R h3 => ?_)
    obtain ⟨h4, h5, h6⟩ := h3
    refine Refines.pure ⟨h.heap.set hc h6, ?_, ?_⟩
    · simp [h4, h5, h.len]
    · simp only [h4, h5, List.append_nil]
      exact h.keep.set hc h6

/-- A call with an answer. -/
theorem refines_on_some {m : Mem F} {w : SliceWorld F} {W : AnswerWorld F} {K : List (Slice × List (DataPoint F))} (h : Same K m w W) (self : Nat)
    {f : SCentroid F → SGo F (Slice × SCentroid F)} {g : Centroid F → Go (List (DataPoint F) × Centroid F)}
    (hf : ∀ c C, RepC m c C → Refines m (f c) (g C) (fun m' r R => StepA m m' [c.dps.arr] r.2 R.2 r.1 R.1)) :
    Refines m (w.on self (fun c => do let r ← f c; pure ([r.1], r.2))) (W.on self (fun C => do let R ← g C; pure ([R.1], R.2))) (Same K) := by
  unfold SliceWorld.on AnswerWorld.on
  cases hc : w.cs[self]? with
  | none =>
    have : W.cs[self]? = none := by rw [List.getElem?_eq_none_iff, ← h.heap.len]; exact List.getElem?_eq_none_iff.1 hc
    rw [this]
    exact Refines.pure h
  | some c =>
    obtain ⟨C, h1, h2⟩ := h.heap.partner hc
    rw [h1]
    have key : Refines m (f c >>= fun r => (pure ([r.1], r.2) : SGo F _)) (g C >>= fun R => (pure ([R.1], R.2) : Go _))
        (fun m' r R => ∃ s l, r.1 = [s] ∧ R.1 = [l] ∧ StepA m m' [c.dps.arr] r.2 R.2 s l) :=
      (hf c C h2).bind (fun m' r R h3 => Refines.pure ⟨r.1, R.1, rfl, rfl, h3⟩)
    refine key.bind (fun m' r R h3 => ?_)
    obtain ⟨s, l, h4, h5, h6⟩ := h3
    refine Refines.pure ⟨h.heap.set hc h6.step, ?_, ?_⟩
    · simp [h4, h5, h.len]
    · simp only [h4, h5]
      rw [List.zip_append h.len, ← List.append_assoc]
      refine (h.keep.set hc h6.step).cons h6.repRes (fun d hd => ?_)
      rcases List.mem_or_eq_of_mem_set hd with hd | rfl
      · obtain ⟨i, hi⟩ := List.mem_iff_getElem?.1 hd
        have := h.heap.lt hi
        have := h6.fresh
        omega
      · exact h6.ne

theorem refines_call (grow : Nat → Nat → Nat) (tk : Nat → Int) {m : Mem F} {w : SliceWorld F} {W : AnswerWorld F} {K : List (Slice × List (DataPoint F))} (h : Same K m w W) :
    ∀ o : CentroidCall F, Refines m (o.runSlice grow tk w) (o.runAnswer tk W) (Same K)
  | .create v cap knn kfn => by
    unfold CentroidCall.runSlice CentroidCall.runAnswer SCentroid.new Centroid.new
    simp only [bind_assoc, pure_bind]
    refine Refines.lift_bind (fun _ => ?_)
    obtain ⟨s, m1, h1, h2, h3, h4, _, _⟩ := det_make m cap.toNat
    refine h1.refines_bind (Refines.pure ⟨?_, h.len, ?_⟩)
    · refine (h.heap.frame_nil h3).push ⟨rfl, rfl, rfl, h2⟩ (fun d hd => ?_)
      obtain ⟨i, hi⟩ := List.mem_iff_getElem?.1 hd
      have := h.heap.lt hi
      show d.dps.arr ≠ s.arr
      omega
    · intro q hq
      obtain ⟨k1, k2⟩ := h.keep q hq
      refine ⟨k1.frame h3 (by simp), fun d hd => ?_⟩
      rcases List.mem_append.1 hd with hd | hd
      · exact k2 d hd
      · simp only [List.mem_singleton] at hd
        subst hd
        have := k1.lt
        show s.arr ≠ q.1.arr
        omega
  | .add self d => refines_on_none h self (fun c C hc =>
      (refines_addDataPoint grow tk hc d).bind (fun _ _ _ h1 => Refines.pure ⟨rfl, rfl, h1.2⟩))
  | .drainUnordered self n => refines_on_some h self (fun c C hc => refines_drainUnordered grow tk hc n)
  | .drainOrdered self n => refines_on_some h self (fun c C hc => refines_drainOrdered grow tk hc n)
  | .expire self => refines_on_none h self (fun c C hc =>
      (refines_expire grow tk hc).bind (fun _ _ _ h1 => Refines.pure ⟨rfl, rfl, h1⟩))
  | .memTrim self => refines_on_none h self (fun c C hc =>
      (refines_memTrim grow tk hc).bind (fun _ _ _ h1 => Refines.pure ⟨rfl, rfl, h1⟩))
  | .moveVector self => refines_on_none h self (fun c C hc =>
      (refines_moveVector grow tk hc).bind (fun _ _ _ h1 => Refines.pure ⟨rfl, rfl, h1.2⟩))
  | .knnLookup self v k drain => refines_on_some h self (fun c C hc => refines_knnLookup grow tk hc v k drain)
  | .distribute self n receivers => by
    simp only [CentroidCall.runSlice, CentroidCall.runAnswer, h.heap.len]
    by_cases hs : self < W.cs.length
    · rw [if_pos hs, if_pos hs]
      exact (refines_distribute grow tk h.heap h.keep self n _).bind (fun _ _ _ h1 => Refines.pure ⟨h1.1, h.len, h1.2⟩)
    · rw [if_neg hs, if_neg hs]
      exact Refines.pure h

theorem refines_calls (grow : Nat → Nat → Nat) (tk : Nat → Int) : ∀ (os : List (CentroidCall F)) {m : Mem F} {w : SliceWorld F} {W : AnswerWorld F} {K : List (Slice × List (DataPoint F))},
    Same K m w W → Refines m (runSlices grow tk os w) (runAnswers tk os W) (Same K)
  | [], _, _, _, _, h => Refines.pure h
  | o :: os, m, w, W, _, h => by
    unfold runSlices runAnswers
    exact (refines_call grow tk h o).bind (fun _ _ _ h1 => refines_calls grow tk os h1)

theorem same_empty : Same [] ([] : Mem F) ⟨[], []⟩ ⟨[], []⟩ :=
  ⟨⟨rfl, fun _ _ _ h => by simp at h, fun _ _ _ _ h => by simp at h⟩, rfl, fun _ h => by simp at h⟩

end Trypo
