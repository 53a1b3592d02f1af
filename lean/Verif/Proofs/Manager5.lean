import Verif.Proofs.Manager4
import Verif.Spec.ManagerHistory

/-!
# Lemmas about pkg/kmeans/centroidmanager: MergeCentroids
-/

set_option linter.unusedSectionVars false
set_option linter.unusedVariables false

namespace Trypo
open GoFloat Spec

variable {F : Type} [GoFloat F]

namespace Manager
open Centroid (flat flat_set CallOK DimOK Evolves RmSteps)

/-- Draining as many datapoints as there are leaves none. -/
theorem wp_drainWhole {tk : Nat → Int} (hm : MonoClock tk) (c : Centroid F) (hd : c.DimOK) (p : Nat) :
    Go.wp (c.drainUnordered tk c.lenDP) (fun r p' => p ≤ p' ∧ r.2.dps = [] ∧ (r.2.knn = c.knn ∧ r.2.kfn = c.kfn) ∧
      (r.2.vec.length = c.vec.length ∧ r.2.DimOK) ∧ Conserved (tk p') c.dps [] r.1 ∧ ∀ d ∈ r.1, d ∈ c.dps) p := by
  refine Go.wp_mono (Go.wp_and (Centroid.wp_drainUnordered tk c (n := c.lenDP) (by omega) p)
    (Centroid.callOK_drainUnordered hm c hd (n := c.lenDP) (by omega) p)) (fun r p' hr => ?_)
  obtain ⟨⟨pre, h1, h2, h3, h4, h5, h6, h7⟩, hok, _⟩ := hr
  have hnil : r.2.dps = [] := by
    unfold Centroid.lenDP at h5 h6
    rcases Nat.lt_or_ge r.1.length c.dps.length with h | h
    · exact h6 (by omega)
    · have e1 := congrArg List.length h2
      have e2 := (liveReads_sublist tk pre p).length_le
      rw [← h3] at e2
      rw [List.length_append] at e1
      exact List.length_eq_zero_iff.1 (by omega)
  refine ⟨hok.le, hnil, hok.search, hok.dim, ?_, fun d hd' => ?_⟩
  · have := hok.conserved
    rwa [hnil, List.nil_append] at this
  · rw [h3] at hd'
    rw [h2]
    exact List.mem_append_left _ ((liveReads_sublist tk pre p).subset hd')

/-- What the inner merging loop of candidate `i` over the indexes `js` guarantees. -/
structure InnerPost (tk : Nat → Int) (merge : Centroid F → Bool) (cm : Manager F) (i : Nat) (js marks : List Nat)
    (cs : List (Centroid F)) (p : Nat) (marks' : List Nat) (cs' : List (Centroid F)) (p' : Nat) : Prop where
  le : p ≤ p'
  fits : Fits cm cs'
  length : cs'.length = cs.length
  sub : ∀ m ∈ marks, m ∈ marks'
  self : i ∉ marks'
  range : ∀ m ∈ marks', m < cs.length
  empty : ∀ m ∈ marks', ∀ c, cs'[m]? = some c → c.dps = []
  conserved : Conserved (tk p') (flat cs) (flat cs') []
  frame : ∀ k, k ≠ i → k ∉ marks' → cs'[k]? = cs[k]?
  goal : (∀ c, cs'[i]? = some c → merge c = false) ∨ ∀ j ∈ js, j = i ∨ j ∈ marks'

theorem wp_mergeInner {tk : Nat → Int} (hm : MonoClock tk) (merge : Centroid F → Bool) (cm : Manager F) (i : Nat) :
    ∀ (js marks : List Nat) (cs : List (Centroid F)) (p : Nat), Fits cm cs → i < cs.length → i ∉ marks →
      (∀ j ∈ js, j < cs.length) → (∀ m ∈ marks, m < cs.length) → (∀ m ∈ marks, ∀ c, cs[m]? = some c → c.dps = []) →
      Go.wp (mergeInner tk merge i js marks cs) (fun r p' => InnerPost tk merge cm i js marks cs p r.1 r.2 p') p
  | [], marks, cs, p, hf, hi, hn, hj, hr, he => by
    unfold mergeInner
    rw [Go.wp_pure]
    exact ⟨Nat.le_refl _, hf, rfl, fun m h => h, hn, hr, he, Conserved.refl _ _, fun _ _ _ => rfl, .inr (by simp)⟩
  | j :: js, marks, cs, p, hf, hi, hn, hj, hr, he => by
    unfold mergeInner
    rw [Go.wp_ite]
    refine ⟨fun hskip => ?_, fun hno => ?_⟩
    · refine Go.wp_mono (wp_mergeInner hm merge cm i js marks cs p hf hi hn (fun x hx => hj x (by simp [hx])) hr he)
        (fun r p' h => { h with goal := ?_ })
      refine h.goal.imp id (fun hg x hx => ?_)
      rcases List.mem_cons.1 hx with rfl | hx
      · exact hskip.imp id (h.sub _)
      · exact hg x hx
    · have hji : j ≠ i := fun h => hno (.inl h)
      have hjm : j ∉ marks := fun h => hno (.inr h)
      have hjl : j < cs.length := hj j (by simp)
      simp only [Go.wp_bind, Go.wp_idx]
      have hcj : cs[j]? = some cs[j] := List.getElem?_eq_getElem hjl
      have hmj := List.getElem_mem hjl
      generalize cs[j] = other at hcj hmj
      refine ⟨other, hcj, Go.wp_mono (wp_drainWhole hm other (hf other hmj).2.2 p) (fun r p1 hd => ?_)⟩
      obtain ⟨d1, d2, d3, d4, ⟨l1, d5, d5'⟩, d6⟩ := hd
      have hci : cs[i]? = some cs[i] := List.getElem?_eq_getElem hi
      have hmi := List.getElem_mem hi
      generalize cs[i] = cand at hci hmi
      have hci1 : (cs.set j r.2)[i]? = some cand := by rw [List.getElem?_set_ne hji]; exact hci
      refine ⟨cand, hci1, ?_⟩
      have hdl : ∀ d ∈ r.1, d.vec.length = cand.vec.length := fun d hd' => by
        rw [(hf other hmj).2.2 d (d6 d hd'), (hf other hmj).2.1, (hf cand hmi).2.1]
      refine Go.wp_mono (wp_addAll tk r.1 cand p1 (hf cand hmi).2.2 hdl) (fun cand' p2 ha => ?_)
      obtain ⟨a1, a2, a3⟩ := ha
      have had := a3.dim (hf cand hmi).2.2
      have hset1 := flat_set hcj r.2
      have hset2 := flat_set hci1 cand'
      obtain ⟨l2, b1, b1'⟩ := liveReads_lost hm r.1 p1 p2 (by omega)
      have hlen2 : ((cs.set j r.2).set i cand').length = cs.length := by simp
      have hfit2 : Fits cm ((cs.set j r.2).set i cand') := by
        intro x hx
        rcases List.mem_or_eq_of_mem_set hx with hx | rfl
        · rcases List.mem_or_eq_of_mem_set hx with hx | rfl
          · exact hf x hx
          · refine ⟨?_, ?_, d4.2⟩
            · rw [d3.1, d3.2]; exact (hf other hmj).1
            · rw [d4.1]; exact (hf other hmj).2.1
        · refine ⟨?_, ?_, had.2⟩
          · rw [a3.search.1, a3.search.2]; exact (hf cand hmi).1
          · rw [had.1]; exact (hf cand hmi).2.1
      have hgj : ((cs.set j r.2).set i cand')[j]? = some r.2 := by
        rw [List.getElem?_set_ne (Ne.symm hji), List.getElem?_set_self hjl]
      have hgi : ((cs.set j r.2).set i cand')[i]? = some cand' := by
        rw [List.getElem?_set_self (by simpa using hi)]
      have hgne : ∀ k, k ≠ i → k ≠ j → ((cs.set j r.2).set i cand')[k]? = cs[k]? := fun k h1 h2 => by
        rw [List.getElem?_set_ne (Ne.symm h1), List.getElem?_set_ne (Ne.symm h2)]
      have hcons : Conserved (tk p2) (flat cs) (flat ((cs.set j r.2).set i cand')) [] := by
        refine ⟨l1 ++ l2, ?_, fun d hd' => ?_⟩
        · rw [d2] at hset1
          rw [a2] at hset2
          permc [d5, hset1, hset2, b1]
        · exact (List.mem_append.1 hd').elim (fun h => (d5' d h).mono hm (by omega)) (b1' d)
      have hn' : i ∉ j :: marks := by simp [hn, Ne.symm hji]
      have hr' : ∀ m ∈ j :: marks, m < cs.length := by
        intro m hm'
        rcases List.mem_cons.1 hm' with rfl | hm'
        · exact hjl
        · exact hr m hm'
      have he' : ∀ m ∈ j :: marks, ∀ c, ((cs.set j r.2).set i cand')[m]? = some c → c.dps = [] := by
        intro m hm' c hc
        rcases List.mem_cons.1 hm' with rfl | hm'
        · rw [hgj] at hc; cases hc; exact d2
        · rw [hgne m (fun h => hn (h ▸ hm')) (fun h => hjm (h ▸ hm'))] at hc
          exact he m hm' c hc
      have hle : p ≤ p2 := by omega
      rw [Go.wp_ite]
      refine ⟨fun hmg => ?_, fun hmg => ?_⟩
      · rw [Go.wp_pure]
        refine ⟨hle, hfit2, hlen2, fun m h => by simp [h], hn', hr', he', hcons, fun k h1 h2 => ?_, .inl (fun c hc => ?_)⟩
        · exact hgne k h1 (fun h => h2 (by simp [h]))
        · simp only at hc; rw [hgi] at hc; cases hc; simpa using hmg
      · refine Go.wp_mono (wp_mergeInner hm merge cm i js (j :: marks) _ p2 hfit2 (by rw [hlen2]; exact hi) hn'
          (fun x hx => by rw [hlen2]; exact hj x (by simp [hx])) (by rw [hlen2]; exact hr') he') (fun s p3 h => ?_)
        obtain ⟨l3, c1, c1'⟩ := h.conserved
        obtain ⟨l4, c2, c2'⟩ := hcons.mono hm h.le
        refine ⟨Nat.le_trans hle h.le, h.fits, h.length.trans hlen2, fun m hm' => h.sub m (by simp [hm']), h.self,
          by rw [← hlen2]; exact h.range, h.empty, ⟨l3 ++ l4, by permc [c1, c2], fun d hd' => (List.mem_append.1 hd').elim (c1' d) (c2' d)⟩,
          fun k h1 h2 => ?_, h.goal.imp id (fun hg x hx => ?_)⟩
        · rw [h.frame k h1 h2]
          exact hgne k h1 (fun hkj => h2 (h.sub k (by simp [hkj])))
        · rcases List.mem_cons.1 hx with rfl | hx
          · exact .inr (h.sub _ (by simp))
          · exact hg x hx

/-- What the outer merging loop over the indexes `is` guarantees. -/
structure OuterPost (tk : Nat → Int) (merge : Centroid F → Bool) (is marks : List Nat) (cm : Manager F) (p : Nat)
    (marks' : List Nat) (cm' : Manager F) (p' : Nat) : Prop where
  le : p ≤ p'
  wf : cm'.WF
  same : Same cm cm'
  vlen : cm'.vec.length = cm.vec.length
  length : cm'.centroids.length = cm.centroids.length
  range : ∀ m ∈ marks', m < cm.centroids.length
  empty : ∀ m ∈ marks', ∀ c, cm'.centroids[m]? = some c → c.dps = []
  conserved : Conserved (tk p') (flat cm.centroids) (flat cm'.centroids) []
  sub : ∀ m ∈ marks, m ∈ marks'
  free : (∃ k < cm.centroids.length, k ∉ marks) → ∃ k < cm.centroids.length, k ∉ marks'
  frame : ∀ k, k ∉ is → k ∉ marks' → cm'.centroids[k]? = cm.centroids[k]?
  goal : FindsAll cm.knn → ∀ k ∈ is, k ∉ marks' →
    (∀ c, cm'.centroids[k]? = some c → merge c = false) ∨ ∀ j < cm.centroids.length, j = k ∨ j ∈ marks'

theorem wp_mergeOuter {tk : Nat → Int} (hm : MonoClock tk) (merge : Centroid F → Bool) : ∀ (is marks : List Nat)
    (cm : Manager F) (p : Nat), cm.WF → is.Nodup → (∀ i ∈ is, i < cm.centroids.length) → (∀ m ∈ marks, m < cm.centroids.length) →
      (∀ m ∈ marks, ∀ c, cm.centroids[m]? = some c → c.dps = []) →
      Go.wp (mergeOuter tk merge is marks cm) (fun r p' => OuterPost tk merge is marks cm p r.1 r.2 p') p
  | [], marks, cm, p, hw, hnd, hi, hr, he => by
    unfold mergeOuter
    rw [Go.wp_pure]
    exact ⟨Nat.le_refl _, hw, .refl _, rfl, rfl, hr, he, Conserved.refl _ _, fun m h => h, fun h => h, fun _ _ _ => rfl, by simp⟩
  | i :: is, marks, cm, p, hw, hnd, hi, hr, he => by
    unfold mergeOuter
    rw [List.nodup_cons] at hnd
    have hil : i < cm.centroids.length := hi i (by simp)
    have hc : cm.centroids[i]? = some cm.centroids[i] := List.getElem?_eq_getElem hil
    have hcm := List.getElem_mem hil
    generalize cm.centroids[i] = cand at hc hcm
    simp only [Go.wp_bind, Go.wp_idx]
    refine ⟨cand, hc, ?_⟩
    rw [Go.wp_ite]
    refine ⟨fun hskip => ?_, fun hno => ?_⟩
    · refine Go.wp_mono (wp_mergeOuter hm merge is marks cm p hw hnd.2 (fun j hj => hi j (by simp [hj])) hr he)
        (fun r p' h => { h with frame := ?_, goal := ?_ })
      · intro k hk hkm
        exact h.frame k (fun hin => hk (by simp [hin])) hkm
      · intro hfa k hk hkm
        rcases List.mem_cons.1 hk with rfl | hk
        · left
          intro c hc'
          rw [h.frame k hnd.1 hkm, hc] at hc'; cases hc'
          simp only [Bool.or_eq_true, Bool.not_eq_true', decide_eq_true_eq] at hskip
          rcases hskip with hs | hs
          · exact hs
          · exact absurd (h.sub k hs) hkm
        · exact h.goal hfa k hk hkm
    · simp only [Bool.or_eq_true, Bool.not_eq_true', decide_eq_true_eq, not_or] at hno
      obtain ⟨js, h1, h2, h3, h4⟩ := hw.good.1 cand.vec cm.centroidVecs cm.centroids.length (by omega)
      have hjs : ∀ j ∈ js, j < cm.centroids.length := by
        intro j hj; have := h3 j hj; rwa [centroidVecs, List.length_map] at this
      simp only [Go.wp_bind, Go.wp_lift, Go.wp_idx]
      refine ⟨js, h1, Go.wp_mono (wp_mergeInner hm merge cm i js marks cm.centroids p hw.fits hil hno.2 hjs hr he) (fun r p1 hin => ?_)⟩
      have hil' : i < r.2.length := by rw [hin.length]; exact hil
      have hc' : r.2[i]? = some r.2[i] := List.getElem?_eq_getElem hil'
      have hcm' := List.getElem_mem hil'
      generalize r.2[i] = cand' at hc' hcm'
      refine ⟨cand', hc', ?_⟩
      have hw1 : ({ cm with centroids := r.2 } : Manager F).WF := hin.fits.wf hw
      have hw2 := hw1.updateVec (old := cand.vec) (new := cand'.vec) (hw.dim cand hcm).1 (hin.fits cand' hcm').2.1
      refine Go.wp_mono (wp_mergeOuter hm merge is r.1 _ p1 hw2 hnd.2
        (fun j hj => by show j < r.2.length; rw [hin.length]; exact hi j (by simp [hj]))
        (fun m hm' => by show m < r.2.length; rw [hin.length]; exact hin.range m hm') hin.empty) (fun s p2 h => ?_)
      have hlen : s.2.centroids.length = cm.centroids.length := h.length.trans hin.length
      obtain ⟨l1, y1, y1'⟩ := hin.conserved.mono hm h.le
      obtain ⟨l2, y2, y2'⟩ := h.conserved
      have hcl : (({ cm with centroids := r.2 } : Manager F).updateVec cand.vec cand'.vec).centroids.length =
          cm.centroids.length := hin.length
      refine ⟨Nat.le_trans hin.le h.le, h.wf, ⟨h.same.knn, h.same.kfn, h.same.cap, h.same.thr⟩,
        h.vlen.trans (updateVec_length _ (hw.dim cand hcm).1 (hin.fits cand' hcm').2.1), hlen, ?_, h.empty,
        ⟨l1 ++ l2, ?_, fun d hd => (List.mem_append.1 hd).elim (y1' d) (y2' d)⟩, fun m hm' => h.sub m (hin.sub m hm'), ?_, ?_, ?_⟩
      · intro m hm'
        have := h.range m hm'
        rwa [hcl] at this
      · change (flat s.2.centroids ++ [] ++ l2).Perm (flat r.2) at y2
        permc [y1, y2]
      · intro _
        have := h.free ⟨i, by rw [hcl]; exact hil, hin.self⟩
        rwa [hcl] at this
      · intro k hk hkm
        have hk1 : k ≠ i := fun e => hk (by simp [e])
        rw [h.frame k (fun e => hk (by simp [e])) hkm]
        exact hin.frame k hk1 (fun e => hkm (h.sub k e))
      · intro hfa k hk hkm
        rcases List.mem_cons.1 hk with rfl | hk
        · rcases hin.goal with hg | hg
          · left
            intro c hc2
            rw [h.frame k hnd.1 hkm] at hc2
            exact hg c hc2
          · right
            intro j hj
            have hall := hfa cand.vec cm.centroidVecs js (fun v hv => by
              obtain ⟨x, hx, rfl⟩ := List.mem_map.1 hv
              rw [(hw.dim x hx).1, (hw.dim cand hcm).1]) (by rw [centroidVecs, List.length_map]; exact h1) j
              (by rw [centroidVecs, List.length_map]; exact hj)
            exact (hg j hall).imp id (h.sub j)
        · have := h.goal hfa k hk hkm
          rwa [hcl] at this

theorem filter_desc (n : Nat) (marks : List Nat) : ((List.range n).reverse.filter (· ∈ marks)).Pairwise (· > ·) := by
  refine List.Pairwise.filter _ ?_
  rw [List.pairwise_reverse]
  exact List.pairwise_lt_range

theorem wp_mergeCentroids {tk : Nat → Int} (hm : MonoClock tk) {cm : Manager F} (hw : cm.WF) (merge : Centroid F → Bool) (p : Nat) :
    Go.wp (cm.mergeCentroids tk merge) (fun cm' p' => Eff tk p p' cm cm' [] [] ∧ (cm.centroids ≠ [] → cm'.centroids ≠ []) ∧
      cm'.centroids.length ≤ cm.centroids.length ∧
      (FindsAll cm.knn → cm'.centroids.length ≤ 1 ∨ ∀ c ∈ cm'.centroids, merge c = false)) p := by
  unfold mergeCentroids
  simp only [Go.wp_bind]
  refine Go.wp_mono (wp_mergeOuter hm merge _ [] cm p hw List.nodup_range (by simp) (by simp) (by simp)) (fun r p1 h => ?_)
  have hin : ∀ i ∈ (List.range cm.centroids.length).reverse.filter (· ∈ r.1), i < r.2.centroids.length := by
    intro i hi
    rw [h.length]
    simpa using (List.mem_filter.1 hi).1
  refine Go.wp_mono (wp_deleteAll _ r.2 p1 (filter_desc _ _) hin) (fun cm' p2 hd => ?_)
  obtain ⟨rfl, ⟨removed, e1, e2⟩, e3⟩ := hd
  have hrem : flat removed = [] := by
    unfold flat
    rw [List.flatMap_eq_nil_iff]
    intro x hx
    have : some x ∈ removed.map some := List.mem_map.2 ⟨x, hx, rfl⟩
    rw [← e2] at this
    obtain ⟨i, hi, hg⟩ := List.mem_map.1 this
    exact h.empty i (by simpa using (List.mem_filter.1 hi).2) x hg
  have hperm := flat_perm e1.perm
  rw [flat_append, hrem, List.nil_append] at hperm
  have hlen : removed.length = ((List.range cm.centroids.length).reverse.filter (· ∈ r.1)).length := by
    have := congrArg List.length e2
    simpa using this.symm
  have hplen := e1.perm.length_eq
  rw [List.length_append, h.length] at hplen
  refine ⟨⟨h.le, e1.wf h.wf, h.same.trans e1.same, by simpa using h.conserved.perm_after hperm.symm,
    fun _ => (e1.vec_length h.wf).trans h.vlen⟩, fun hne => ?_, by omega, fun hfa => ?_⟩
  · obtain ⟨k, hk, hkm⟩ := h.free ⟨0, by exact List.length_pos_iff.2 hne, by simp⟩
    intro hnil
    rw [hnil] at hplen
    simp only [List.length_nil, Nat.add_zero] at hplen
    have hlt : ((List.range cm.centroids.length).reverse.filter (· ∈ r.1)).length < (List.range cm.centroids.length).reverse.length :=
      List.length_filter_lt_length_iff_exists.2 ⟨k, by simpa using hk, by simpa using hkm⟩
    simp only [List.length_reverse, List.length_range] at hlt
    omega
  · by_cases hall : ∀ c ∈ cm'.centroids, merge c = false
    · exact .inr hall
    · left
      simp only [not_forall] at hall
      obtain ⟨c, hc, hmc⟩ := hall
      obtain ⟨k, hk1, hk2⟩ := e3 c hc
      have hkl : k < cm.centroids.length := by rw [← h.length]; exact (List.getElem?_eq_some_iff.1 hk2).1
      have hkm : k ∉ r.1 := fun hin => hk1 (List.mem_filter.2 ⟨by simpa using hkl, by simpa using hin⟩)
      rcases h.goal hfa k (by simpa using hkl) hkm with hg | hg
      · exact absurd (hg c hk2) hmc
      · -- everything but `k` is deleted
        have hcount : cm.centroids.length ≤ ((List.range cm.centroids.length).reverse.filter (· ∈ r.1)).length + 1 := by
          have hsub : List.range cm.centroids.length ⊆ k :: (List.range cm.centroids.length).reverse.filter (· ∈ r.1) := by
            intro j hj
            have hj := List.mem_range.1 hj
            rcases hg j hj with rfl | hjm
            · simp
            · exact List.mem_cons_of_mem _ (List.mem_filter.2 ⟨by simpa using hj, by simpa using hjm⟩)
          have := (List.subperm_of_subset List.nodup_range hsub).length_le
          simpa using this
        omega

end Manager
end Trypo
