import Verif.Proofs.Manager

/-!
# Lemmas about pkg/kmeans/centroidmanager: splitting one centroid, AddDataPoint
-/

set_option linter.unusedSectionVars false
set_option linter.unusedVariables false

namespace Trypo
open GoFloat Spec

variable {F : Type} [GoFloat F]

namespace Manager
open Centroid (flat flat_set CallOK DimOK Evolves RmSteps)

theorem wp_addAll (tk : Nat → Int) : ∀ (ds : List (DataPoint F)) (c : Centroid F) (p : Nat), c.DimOK →
    (∀ d ∈ ds, d.vec.length = c.vec.length) →
    Go.wp (addAll tk ds c) (fun c' p' => p' = p + ds.length ∧ c'.dps = c.dps ++ liveReads tk p ds ∧ Evolves c c') p
  | [], c, p, _, _ => by
    unfold addAll
    rw [Go.wp_pure]
    exact ⟨rfl, by simp [liveReads], .refl c⟩
  | d :: ds, c, p, hd, hl => by
    unfold addAll
    have hl0 : d.vec.length = c.vec.length := hl d (by simp)
    simp only [Go.wp_bind, Centroid.wp_addDataPoint, liveReads_cons]
    rw [if_neg (by simpa using hl0)]
    split
    · refine Go.wp_mono (wp_addAll tk ds c (p + 1) hd (fun e he => hl e (by simp [he]))) (fun c' p' h => ?_)
      exact ⟨by simp only [List.length_cons]; omega, h.2.1, h.2.2⟩
    · refine Go.wp_mono (wp_addAll tk ds (c.addRaw d) (p + 1) (Centroid.addRaw_dimOK hl0 hd)
        (fun e he => by rw [Centroid.addRaw_vec_length hl0]; exact hl e (by simp [he]))) (fun c' p' h => ?_)
      refine ⟨by simp only [List.length_cons]; omega, ?_, (Centroid.addRaw_evolves hl0).trans h.2.2⟩
      rw [h.2.1, show (c.addRaw d).dps = c.dps ++ [d] from rfl]; simp

/-- What splitting `n` datapoints off the centroid `c` at index `i` does: `c'` stays, `nc` is new. -/
structure SplitPost (tk : Nat → Int) (p : Nat) (cm : Manager F) (i : Nat) (n : Int) (c c' nc : Centroid F)
    (cm' : Manager F) (p' : Nat) : Prop where
  eq : cm' = { cm with centroids := cm.centroids.set i c' }
  shape : ∃ pre, RmSteps c pre c' ∧ c.dps = pre ++ c'.dps ∧
    nc.dps = liveReads tk (p + pre.length) (liveReads tk p pre) ∧ p' = p + pre.length + (liveReads tk p pre).length ∧
    ((liveReads tk p pre).length : Int) ≤ n ∧ (((liveReads tk p pre).length : Int) < n → c'.dps = []) ∧
    (c.dps ≠ [] → pre ≠ [])
  search : nc.knn = cm.knn ∧ nc.kfn = cm.kfn
  dim : nc.vec.length = c.vec.length ∧ nc.DimOK

theorem wp_splitCentroid {tk : Nat → Int} {cm : Manager F} (hw : cm.WF) {i : Nat} {c : Centroid F}
    (hc : cm.centroids[i]? = some c) {n : Int} (hn : 0 < n) (p : Nat) :
    Go.wp (cm.splitCentroid tk i n) (fun r p' => ∃ c' nc, r.1 = some nc ∧ SplitPost tk p cm i n c c' nc r.2 p') p := by
  unfold splitCentroid
  have hd := hw.dim c (List.mem_of_getElem? hc)
  simp only [hc]
  rw [if_neg (by omega)]
  unfold newCentroid Centroid.new
  simp only [Go.wp_bind, Go.wp_checkMake, Go.wp_pure]
  refine ⟨hw.cap, Go.wp_mono (Centroid.wp_drainUnordered tk c (n := n) (by omega) p) (fun r p1 hr => ?_)⟩
  obtain ⟨pre, h1, h2, h3, h4, h5, h6, h7⟩ := hr
  have hmem : ∀ d ∈ r.1, d ∈ c.dps := by
    intro d hd'
    rw [h3] at hd'
    rw [h2]
    exact List.mem_append_left _ ((liveReads_sublist tk pre p).subset hd')
  refine Go.wp_mono (wp_addAll tk r.1 _ p1 (by intro d hd'; simp at hd') (fun d hd' => hd.2 d (hmem d hd')))
    (fun nc p2 hnc => ?_)
  obtain ⟨e1, e2, e3⟩ := hnc
  have hdn := e3.dim (by intro d hd'; simp at hd')
  refine ⟨r.2, nc, rfl, rfl, ⟨pre, h1, h2, ?_, ?_, ?_, ?_, h7 hn⟩, e3.search, hdn⟩
  · rw [e2, h4, h3]; simp
  · rw [e1, h4, h3]
  · rw [← h3]; exact h5
  · rw [← h3]; exact h6

theorem splitCentroid_none {tk : Nat → Int} {cm : Manager F} {i : Nat} {n : Int} (hn : n ≤ 0) :
    cm.splitCentroid tk i n = pure (none, cm) := by
  unfold splitCentroid
  split
  · rfl
  · rw [if_pos hn]

theorem flat_append (a b : List (Centroid F)) : flat (a ++ b) = flat a ++ flat b := by simp [flat]
theorem flat_single (a : Centroid F) : flat [a] = a.dps := by simp [flat]
theorem flat_nil : flat ([] : List (Centroid F)) = [] := rfl

/-- Where the datapoints go in a split. -/
theorem SplitPost.conserved {tk : Nat → Int} (hm : MonoClock tk) {p : Nat} {cm : Manager F} {i : Nat} {n : Int}
    {c c' nc : Centroid F} {cm' : Manager F} {p' : Nat} (h : SplitPost tk p cm i n c c' nc cm' p') :
    p ≤ p' ∧ Conserved (tk p') c.dps (c'.dps ++ nc.dps) [] := by
  obtain ⟨pre, h1, h2, h3, h4, h5, h6, h7⟩ := h.shape
  obtain ⟨l1, e1, e1'⟩ := liveReads_lost hm pre p p' (by omega)
  obtain ⟨l2, e2, e2'⟩ := liveReads_lost hm (liveReads tk p pre) (p + pre.length) p' (by omega)
  refine ⟨by omega, l1 ++ l2, ?_, fun d hd => (List.mem_append.1 hd).elim (e1' d) (e2' d)⟩
  rw [h2, h3]; permc [e1, e2]

theorem SplitPost.wf {tk : Nat → Int} {p : Nat} {cm : Manager F} (hw : cm.WF) {i : Nat} {n : Int}
    {c c' nc : Centroid F} {cm' : Manager F} {p' : Nat} (hc : cm.centroids[i]? = some c)
    (h : SplitPost tk p cm i n c c' nc cm' p') : cm'.WF := by
  obtain ⟨pre, h1, h2⟩ := h.shape
  rw [h.eq]
  exact hw.set hc h1.search (h1.dim (hw.dim c (List.mem_of_getElem? hc)).2)

theorem SplitPost.same {tk : Nat → Int} {p : Nat} {cm : Manager F} {i : Nat} {n : Int}
    {c c' nc : Centroid F} {cm' : Manager F} {p' : Nat} (h : SplitPost tk p cm i n c c' nc cm' p') :
    Same cm cm' ∧ cm'.vec = cm.vec ∧ cm'.centroids = cm.centroids.set i c' := by
  rw [h.eq]; exact ⟨⟨rfl, rfl, rfl, rfl⟩, rfl, rfl⟩

/-- Appending new centroids. -/
theorem WF.append {cm : Manager F} (hw : cm.WF) {cs : List (Centroid F)} (hs : ∀ c ∈ cs, c.knn = cm.knn ∧ c.kfn = cm.kfn)
    (hd : ∀ c ∈ cs, c.vec.length = cm.vec.length ∧ c.DimOK) :
    ({ cm with centroids := cm.centroids ++ cs } : Manager F).WF :=
  ⟨hw.cap, hw.good, fun x hx => (List.mem_append.1 hx).elim (hw.search x) (hs x),
    fun x hx => (List.mem_append.1 hx).elim (hw.dim x) (hd x)⟩

/-! ### AddDataPoint -/

/-- The three ways in which `AddDataPoint` answers true. -/
inductive AddShape (tk : Nat → Int) (p : Nat) (cm : Manager F) (d : DataPoint F) : Manager F → Nat → Prop
  | first {p' : Nat} {c' : Centroid F} (h0 : cm.centroids = []) (hd : c'.dps = [d] ∨ c'.dps = [] ∧ Dead (tk p') d)
      (hs : c'.knn = cm.knn ∧ c'.kfn = cm.kfn) (hdim : c'.DimOK ∧ c'.vec.length = d.vec.length)
      (hp : p ≤ p') :
      AddShape tk p cm d { cm with centroids := [c'], vec := c'.vec } p'
  | plain {p' j : Nat} {c : Centroid F} (hc : cm.centroids[j]? = some c) (hl : d.vec.length = c.vec.length)
      (ht : (c.dps.length + 1 : Int) < cm.threshold ∨ cm.threshold ≤ 1) (hp : p ≤ p') :
      AddShape tk p cm d (cm.upd j c.vec (c.addRaw d)) p'
  | split {p1 p' j : Nat} {c c' nc : Centroid F} {cm' : Manager F} (hc : cm.centroids[j]? = some c)
      (hl : d.vec.length = c.vec.length) (ht : cm.threshold ≤ c.dps.length + 1) (ht2 : 2 ≤ cm.threshold) (hp : p ≤ p1)
      (hsp : SplitPost tk p1 (cm.upd j c.vec (c.addRaw d)) j (cm.threshold.tdiv 2) (c.addRaw d) c' nc cm' p') :
      AddShape tk p cm d { cm' with centroids := cm'.centroids ++ [nc] } p'

theorem wp_addDataPoint {tk : Nat → Int} (hm : MonoClock tk) {cm : Manager F} (hw : cm.WF) (d : DataPoint F) (p : Nat) :
    Go.wp (cm.addDataPoint tk d) (fun r p' => p ≤ p' ∧ (r.1 = false → r.2 = cm) ∧ (r.1 = true → AddShape tk p cm d r.2 p') ∧
      (Dead (tk p) d → r.1 = false) ∧ (¬ Dead (tk p) d → cm.centroids = [] → r.1 = true)) p := by
  unfold addDataPoint
  simp only [Go.wp_bind, DataPoint.wp_expired, Go.wp_ite]
  refine ⟨fun he => ?_, fun he => ⟨fun h0 => ?_, fun h0 => ?_⟩⟩
  · rw [Go.wp_pure]
    exact ⟨by omega, fun _ => rfl, by simp, fun _ => rfl, fun h => absurd ((expiredAt_iff _ _).1 he) h⟩
  · have h0' : cm.centroids = [] := List.length_eq_zero_iff.1 h0
    have hnd : ¬ Dead (tk p) d := fun h => he ((expiredAt_iff _ _).2 h)
    unfold newCentroid Centroid.new
    simp only [Go.wp_bind, Go.wp_checkMake, Go.wp_pure, Centroid.wp_addDataPoint]
    refine ⟨hw.cap, ?_⟩
    rw [if_neg (by simp)]
    split
    · rename_i he2
      refine ⟨by omega, by simp, fun _ => ?_, fun h => absurd h hnd, by simp⟩
      rw [h0']
      exact .first (c' := { vec := d.vec, dps := [], knn := cm.knn, kfn := cm.kfn }) h0'
        (.inr ⟨rfl, ((expiredAt_iff _ _).1 he2).mono hm (by omega)⟩) ⟨rfl, rfl⟩ ⟨by intro e h; simp at h, rfl⟩ (by omega)
    · refine ⟨by omega, by simp, fun _ => ?_, fun h => absurd h hnd, by simp⟩
      rw [h0']
      exact .first (c' := Centroid.addRaw { vec := d.vec, dps := [], knn := cm.knn, kfn := cm.kfn } d) h0'
        (.inl rfl) ⟨rfl, rfl⟩ ⟨Centroid.addRaw_dimOK rfl (by intro e h; simp at h), Centroid.addRaw_vec_length rfl⟩ (by omega)
  · have hnd : ¬ Dead (tk p) d := fun h => he ((expiredAt_iff _ _).2 h)
    have hne : cm.centroids ≠ [] := fun h => h0 (by simp [h])
    obtain ⟨is, h1, h2, h3, h4⟩ := hw.good.1 d.vec cm.centroidVecs 1 (by omega)
    simp only [Go.wp_lift]
    refine ⟨is, h1, ?_⟩
    cases is with
    | nil =>
      simp only [Go.wp_pure]
      exact ⟨by omega, by simp, by simp, by simp, fun _ h => absurd h hne⟩
    | cons j js =>
      have hj : j < cm.centroids.length := by
        have := h3 j (by simp); rwa [centroidVecs, List.length_map] at this
      simp only [Go.wp_bind, Go.wp_idx]
      have hc : cm.centroids[j]? = some cm.centroids[j] := List.getElem?_eq_getElem hj
      have hset : cm.centroids.set j cm.centroids[j] = cm.centroids := List.set_getElem_self hj
      generalize cm.centroids[j] = c at hc hset
      refine ⟨c, hc, ?_⟩
      rw [Centroid.wp_addDataPoint]
      split
      · simp only [hset, Bool.not_false, if_true, Go.wp_pure]
        exact ⟨by omega, by simp, by simp, by simp, fun _ h => absurd h hne⟩
      · rename_i hl
        have hl : d.vec.length = c.vec.length := by simpa using hl
        split
        · simp only [hset, Bool.not_false, if_true, Go.wp_pure]
          exact ⟨by omega, by simp, by simp, by simp, fun _ h => absurd h hne⟩
        · simp only [Bool.not_true, Bool.false_eq_true, if_false, Go.wp_ite]
          have hlen : (c.addRaw d).lenDP = c.dps.length + 1 := by simp [Centroid.lenDP, Centroid.addRaw]
          rw [hlen]
          change (cm.threshold ≤ _ → _) ∧ (¬ cm.threshold ≤ _ → _)
          refine ⟨fun ht => ?_, fun ht => ?_⟩
          · change Go.wp (do
              let s ← (cm.upd j c.vec (c.addRaw d)).splitCentroid tk j (cm.threshold.tdiv 2)
              match s.1 with
              | some nc => pure (true, { s.2 with centroids := s.2.centroids ++ [nc] })
              | none => pure (true, s.2)) _ _
            have hget : (cm.upd j c.vec (c.addRaw d)).centroids[j]? = some (c.addRaw d) := by
              rw [upd_centroids, List.getElem?_set_self hj]
            have hdim := (hw.dim c (List.mem_of_getElem? hc)).2
            have hwu : (cm.upd j c.vec (c.addRaw d)).WF :=
              hw.upd hc ⟨rfl, rfl⟩ ⟨Centroid.addRaw_vec_length hl, Centroid.addRaw_dimOK hl hdim⟩
            by_cases ht2 : 2 ≤ cm.threshold
            · have hdiv : 0 < cm.threshold.tdiv 2 := by
                rw [Int.tdiv_eq_ediv_of_nonneg (by omega)]; omega
              rw [Go.wp_bind]
              refine Go.wp_mono (wp_splitCentroid hwu hget hdiv (p + 1 + 1)) (fun s p' hs => ?_)
              obtain ⟨c', nc, hs1, hs2⟩ := hs
              simp only [hs1, Go.wp_pure]
              have hle := (hs2.conserved hm).1
              refine ⟨by omega, by simp, fun _ => ?_, fun h => absurd h hnd, by simp⟩
              exact .split hc hl (by push_cast at ht; exact ht) ht2 (by omega) hs2
            · have hdiv : cm.threshold.tdiv 2 ≤ 0 := by
                rcases Int.lt_or_le cm.threshold 0 with h | h
                · have h1 := Int.neg_tdiv cm.threshold 2
                  have h2 := Int.tdiv_nonneg (a := -cm.threshold) (b := 2) (by omega) (by omega)
                  omega
                · rw [Int.tdiv_eq_ediv_of_nonneg h]; omega
              rw [splitCentroid_none hdiv]
              simp only [Go.wp_bind, Go.wp_pure]
              refine ⟨by omega, by simp, fun _ => ?_, fun h => absurd h hnd, by simp⟩
              exact .plain hc hl (.inr (by omega)) (by omega)
          · rw [Go.wp_pure]
            refine ⟨by omega, by simp, fun _ => ?_, fun h => absurd h hnd, by simp⟩
            exact .plain hc hl (.inl (by push_cast at ht; omega)) (by omega)

theorem AddShape.eff {tk : Nat → Int} (hm : MonoClock tk) {p p' : Nat} {cm cm' : Manager F} (hw : cm.WF) {d : DataPoint F}
    (h : AddShape tk p cm d cm' p') : Eff tk p p' cm cm' [d] [] := by
  cases h with
  | @first p' c' h0 hd hs hdim hp =>
    refine ⟨hp, ⟨hw.cap, hw.good, ?_, ?_⟩, ⟨rfl, rfl, rfl, rfl⟩, ?_, fun h => hdim.2.trans (h d (by simp))⟩
    · intro x hx; rw [List.mem_singleton.1 hx]; exact hs
    · intro x hx; rw [List.mem_singleton.1 hx]; exact ⟨rfl, hdim.1⟩
    · rw [h0, flat_single, flat_nil]
      rcases hd with hd | ⟨hd, hdead⟩
      · rw [hd]; exact ⟨[], by simp, by simp⟩
      · rw [hd]; exact ⟨[d], by simp, by simpa using hdead⟩
  | @plain p' j c hc hl ht hp =>
    have hdim := (hw.dim c (List.mem_of_getElem? hc)).2
    exact Eff.upd hw hc ⟨hp, ⟨rfl, rfl⟩, ⟨Centroid.addRaw_vec_length hl, Centroid.addRaw_dimOK hl hdim⟩,
      [], by simp [Centroid.addRaw], by simp⟩
  | @split p1 p' j c c' nc cm1 hc hl ht ht2 hp hsp =>
    have hdim := (hw.dim c (List.mem_of_getElem? hc)).2
    have hlt := (List.getElem?_eq_some_iff.1 hc).1
    have hget : (cm.upd j c.vec (c.addRaw d)).centroids[j]? = some (c.addRaw d) := by
      rw [upd_centroids, List.getElem?_set_self hlt]
    have e1 : Eff tk p p1 cm (cm.upd j c.vec (c.addRaw d)) [d] [] :=
      Eff.upd hw hc ⟨hp, ⟨rfl, rfl⟩, ⟨Centroid.addRaw_vec_length hl, Centroid.addRaw_dimOK hl hdim⟩,
        [], by simp [Centroid.addRaw], by simp⟩
    obtain ⟨hle, l2, q1, q2⟩ := hsp.conserved hm
    obtain ⟨l1, q3, q4⟩ := e1.conserved.mono hm hle
    obtain ⟨s1, s2, s3⟩ := hsp.same
    have hset := flat_set hget c'
    refine ⟨by omega, (hsp.wf e1.wf hget).append (fun x hx => ?_) (fun x hx => ?_), e1.same.trans (s1.trans ⟨rfl, rfl, rfl, rfl⟩),
      ⟨l1 ++ l2, ?_, fun e he => (List.mem_append.1 he).elim (q4 e) (q2 e)⟩, fun h => by rw [s2]; exact e1.len h⟩
    · rw [List.mem_singleton.1 hx, s1.knn, s1.kfn]; exact hsp.search
    · rw [List.mem_singleton.1 hx, s2]
      exact ⟨hsp.dim.1.trans (e1.wf.dim _ (List.mem_of_getElem? hget)).1, hsp.dim.2⟩
    · simp only [s3, flat_append, flat_single]
      permc [q1, q3, hset]

end Manager
end Trypo
