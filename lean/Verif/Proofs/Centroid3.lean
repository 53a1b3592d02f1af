import Verif.Proofs.Centroid2
import Verif.Proofs.KNN

/-!
# Effects of centroid operations in terms of the specifications
-/

set_option linter.unusedSectionVars false
set_option linter.unusedVariables false

namespace Trypo
open GoFloat Spec

variable {F : Type} [GoFloat F]

theorem searchOK_knnBrute [LawfulCmp F] (asc : Bool) (dist : List F → List F → Option F) :
    SearchOK (fun t p k => knnBrute t p k asc dist : Search F) := by
  intro t pool k hk
  obtain ⟨r, h1, h2⟩ := knnBrute_kbest t dist asc k.toNat pool
  rw [Int.toNat_of_nonneg hk] at h1
  refine ⟨r, h1, h2.nodup, fun i hi => ?_, ?_⟩
  · obtain ⟨s, v, hv, _⟩ := h2.valid i hi
    exact (List.getElem?_eq_some_iff.1 hv).1
  · have := h2.length
    omega

theorem searchOK_prefabs [LawfulCmp F] :
    SearchOK (knnCos : Search F) ∧ SearchOK (kfnCos : Search F) ∧ SearchOK (knnEuc : Search F) ∧
      SearchOK (kfnEuc : Search F) :=
  ⟨searchOK_knnBrute _ _, searchOK_knnBrute _ _, searchOK_knnBrute _ _, searchOK_knnBrute _ _⟩

namespace Centroid

theorem live_filter (t : Int) (l : List (DataPoint F)) :
    l.filter (fun d => !d.expiredAt t) = l.filter (fun d => ¬ Dead t d) := by
  apply List.filter_congr
  intro d _
  rw [Bool.eq_iff_iff]
  simp [expiredAt_false_iff]

theorem Purged.survivors {tk : Nat → Int} {p p' : Nat} {c c' : Centroid F} (h : Purged tk 0 p p' c c') :
    Survivors (tk p) (tk p') c.dps c'.dps := by
  have h1 := h.lower
  have h2 := h.upper
  simp only [List.drop_zero] at h1 h2
  rw [live_filter] at h1 h2
  exact ⟨h1, h2⟩

theorem Purged.conserved {tk : Nat → Int} {i p p' : Nat} {c c' : Centroid F} (h : Purged tk i p p' c c') :
    Conserved (tk p') c.dps c'.dps [] := by
  obtain ⟨removed, hs, hr⟩ := h.steps
  exact hs.conserved hr

theorem Survivors.live {t t' : Int} {b a : List (DataPoint F)} (h : Survivors t t' b a) : AllLive t a := by
  intro d hd
  simpa using (List.mem_filter.1 (h.drops.subset hd)).2

/-- What a drain hands out and leaves. -/
theorem DrainEffect.facts {tk : Nat → Int} {s : Search F} {target : List F} {n : Int} {c : Centroid F} {p : Nat}
    {out : List (DataPoint F)} {c' : Centroid F} {p' : Nat} (h : DrainEffect tk s target n c p out c' p') :
    p ≤ p' ∧ (∃ removed, RmSteps c removed c') ∧ Conserved (tk p') c.dps c'.dps out ∧ AllLive (tk p) out ∧
      (out.length : Int) ≤ n ∧ (∀ d ∈ out, d ∈ c.dps) := by
  obtain ⟨c1, is, h1, h2, h3, h4, h5⟩ := h
  obtain ⟨rm1, hs1, hr1⟩ := h1.steps
  obtain ⟨rm2, hs2, hr2⟩ := h5.steps
  have hp1 := hs1.perm
  have hp2 := hs2.perm
  have hout : ∀ d ∈ out, d ∈ c1.dps := fun d hd => hp2.mem_iff.1 (List.mem_append_left _ (hr2.mem_iff.2 hd))
  refine ⟨h1.le, ⟨_, hs1.trans hs2⟩, ⟨rm1, by permc [hp1, hp2, hr2], hr1⟩, ?_, ?_, ?_⟩
  · intro d hd
    exact Survivors.live h1.survivors d (hout d hd)
  · have := congrArg List.length h5.out_eq
    simp only [List.length_map] at this
    omega
  · intro d hd
    exact hs1.sublist.subset (hout d hd)

theorem LookupEffect.facts {tk : Nat → Int} {s : Search F} {target : List F} {n : Int} {c : Centroid F} {p : Nat}
    {out : List (DataPoint F)} {c' : Centroid F} {p' : Nat} (h : LookupEffect tk s target n c p out c' p') :
    p ≤ p' ∧ Purged tk 0 p p' c c' ∧ AllLive (tk p) out ∧ (out.length : Int) ≤ n ∧ (∀ d ∈ out, d ∈ c'.dps) ∧
      ∃ rest, (out ++ rest).Perm c'.dps := by
  obtain ⟨is, h1, h2, h3, h4, h5⟩ := h
  have hout : ∀ d ∈ out, d ∈ c'.dps := by
    intro d hd
    have : some d ∈ is.map (fun i => c'.dps[i]?) := by rw [h5]; exact List.mem_map.2 ⟨d, hd, rfl⟩
    obtain ⟨i, _, hi⟩ := List.mem_map.1 this
    exact List.mem_of_getElem? hi
  refine ⟨h1.le, h1, fun d hd => Survivors.live h1.survivors d (hout d hd), ?_, hout, ?_⟩
  · have := congrArg List.length h5
    simp only [List.length_map] at this
    omega
  · -- distinct positions form a sub-bag
    have hr : ∀ i ∈ is, i < c'.dps.length := by
      intro i hi
      have : c'.dps[i]? ∈ out.map some := by rw [← h5]; exact List.mem_map.2 ⟨i, hi, rfl⟩
      obtain ⟨d, _, hd⟩ := List.mem_map.1 this
      exact (List.getElem?_eq_some_iff.1 hd.symm).1
    have hw := wp_select (p := p) h3 hr h5
    rw [Go.wp_iff] at hw
    obtain ⟨c2, q, _, _, hsel⟩ := hw
    obtain ⟨removed, hs, hperm⟩ := hsel.steps
    exact ⟨c2.dps, (hperm.symm.append_right _).trans hs.perm⟩

/-- Optimality of a selection made by a library search. -/
theorem select_best [LawfulCmp F] {asc : Bool} {dist : List F → List F → Option F} {target : List F}
    {n : Nat} {c1 c' : Centroid F} {is : List Nat} {out : List (DataPoint F)}
    (h2 : knnBrute target (c1.dps.map (fun d => d.vec)) n asc dist = .ok is) (h5 : Selected c1 c' is out) :
    (out ++ c'.dps).Perm c1.dps ∧ c'.dps.Sublist c1.dps ∧
      BestOf (fun d => dist target d.vec) asc out c'.dps ∧
      out.length = min n (candidates (fun d => dist target d.vec) asc c1.dps) := by
  obtain ⟨r, hr, hk⟩ := knnBrute_kbest target dist asc n (c1.dps.map (fun d => d.vec))
  rw [h2] at hr
  cases hr
  obtain ⟨rm2, hs2, hr2⟩ := h5.steps
  have hlen : is.length = out.length := by
    have := congrArg List.length h5.out_eq; simpa using this
  have hget : ∀ (m : Nat) (d : DataPoint F), out[m]? = some d → ∃ i, is[m]? = some i ∧ c1.dps[i]? = some d := by
    intro m d hd
    have : (is.map (fun i => c1.dps[i]?))[m]? = some (some d) := by rw [h5.out_eq]; simp [hd]
    rw [List.getElem?_map, Option.map_eq_some_iff] at this
    exact this
  have hscore : ∀ (i : Nat) (d : DataPoint F) (s : F), c1.dps[i]? = some d → dist target d.vec = some s → Comparable asc s →
      HasScore (dist target) asc (c1.dps.map (fun d => d.vec)) i s := by
    intro i d s hd hs hc
    exact ⟨d.vec, by simp [hd], hs, hc⟩
  have hvalid : ∀ (i : Nat) (d : DataPoint F), i ∈ is → c1.dps[i]? = some d → ∃ s, dist target d.vec = some s ∧ Comparable asc s := by
    intro i d hi hd
    obtain ⟨s, v, hv, hs, hc⟩ := hk.valid i hi
    rw [List.getElem?_map, hd] at hv
    cases hv
    exact ⟨s, hs, hc⟩
  refine ⟨(hr2.symm.append_right _).trans hs2.perm, hs2.sublist, ⟨?_, ?_, ?_⟩, ?_⟩
  · intro d hd
    obtain ⟨m, hm⟩ := List.mem_iff_getElem?.1 hd
    obtain ⟨i, hi, hid⟩ := hget m d hm
    exact hvalid i d (List.mem_of_getElem? hi) hid
  · rw [List.pairwise_iff_getElem]
    intro m m' hm hm' hlt s t hs ht
    obtain ⟨i, hi, hid⟩ := hget m _ (List.getElem?_eq_getElem hm)
    obtain ⟨i', hi', hid'⟩ := hget m' _ (List.getElem?_eq_getElem hm')
    obtain ⟨s', hs', hc⟩ := hvalid i _ (List.mem_of_getElem? hi) hid
    obtain ⟨t', ht', hc'⟩ := hvalid i' _ (List.mem_of_getElem? hi') hid'
    rw [hs] at hs'; cases hs'
    rw [ht] at ht'; cases ht'
    have := (List.pairwise_iff_getElem.1 hk.sorted) m m' (by omega) (by omega) hlt s t
    obtain ⟨_, e1⟩ := List.getElem?_eq_some_iff.1 hi
    obtain ⟨_, e2⟩ := List.getElem?_eq_some_iff.1 hi'
    rw [e1, e2] at this
    exact this (hscore i _ s hid hs hc) (hscore i' _ t hid' ht hc')
  · intro d hd e he s t hs ht hct
    obtain ⟨m, hm⟩ := List.mem_iff_getElem?.1 hd
    obtain ⟨i, hi, hid⟩ := hget m d hm
    obtain ⟨s', hs', hc⟩ := hvalid i _ (List.mem_of_getElem? hi) hid
    rw [hs] at hs'; cases hs'
    obtain ⟨j, hj, hje⟩ := h5.rest e he
    exact hk.best i (List.mem_of_getElem? hi) j hj s t (hscore i d s hid hs hc) (hscore j e t hje ht hct)
  · rw [← hlen, hk.length, List.countP_map]
    rfl

/-- Optimality of a drain when the search function is a library search. -/
theorem DrainEffect.best [LawfulCmp F] {tk : Nat → Int} {asc : Bool} {dist : List F → List F → Option F} {target : List F}
    {n : Nat} {c : Centroid F} {p : Nat} {out : List (DataPoint F)} {c' : Centroid F} {p' : Nat}
    (h : DrainEffect tk (fun t pl k => knnBrute t pl k asc dist) target n c p out c' p') :
    ∃ surv, Survivors (tk p) (tk p') c.dps surv ∧ (out ++ c'.dps).Perm surv ∧ c'.dps.Sublist surv ∧
      BestOf (fun d => dist target d.vec) asc out c'.dps ∧
      out.length = min n (candidates (fun d => dist target d.vec) asc surv) := by
  obtain ⟨c1, is, h1, h2, h3, h4, h5⟩ := h
  exact ⟨c1.dps, h1.survivors, select_best h2 h5⟩

/-- Optimality of a read-only lookup when the search function is a library search. -/
theorem LookupEffect.best [LawfulCmp F] {tk : Nat → Int} {asc : Bool} {dist : List F → List F → Option F} {target : List F}
    {n : Nat} {c : Centroid F} {p : Nat} {out : List (DataPoint F)} {c' : Centroid F} {p' : Nat}
    (h : LookupEffect tk (fun t pl k => knnBrute t pl k asc dist) target n c p out c' p') :
    ∃ rest, (out ++ rest).Perm c'.dps ∧ BestOf (fun d => dist target d.vec) asc out rest ∧
      out.length = min n (candidates (fun d => dist target d.vec) asc c'.dps) := by
  obtain ⟨is, h1, h2, h3, h4, h5⟩ := h
  have hr : ∀ i ∈ is, i < c'.dps.length := by
    intro i hi
    have : c'.dps[i]? ∈ out.map some := by rw [← h5]; exact List.mem_map.2 ⟨i, hi, rfl⟩
    obtain ⟨d, _, hd⟩ := List.mem_map.1 this
    exact (List.getElem?_eq_some_iff.1 hd.symm).1
  have hw := wp_select (p := p) h3 hr h5
  rw [Go.wp_iff] at hw
  obtain ⟨c2, q, _, _, hsel⟩ := hw
  have := select_best h2 hsel
  exact ⟨c2.dps, this.1, this.2.2.1, this.2.2.2⟩

/-- What `DistributeDataPoints` does to a heap of centroids. -/
theorem wp_distribute {tk : Nat → Int} (hm : MonoClock tk) (h : List (Centroid F)) (self : Nat) (c : Centroid F)
    (hc : h[self]? = some c) (hk : SearchOK c.knn) (hf : SearchOK c.kfn) (hd : c.DimOK) {n : Int} (hn : 0 ≤ n)
    (receivers : List Nat) (hr : ∀ r ∈ receivers, r < h.length) (p : Nat) :
    Go.wp (distribute tk h self n receivers) (fun h' p' => p ≤ p' ∧ HeapEvolves self h h' ∧
      Conserved (tk p') (flat h) (flat h') [] ∧
      (∀ c', h'[self]? = some c' →
        ((flat h').length + c.dps.length : Int) ≤ (flat h).length + c'.dps.length + n)) p := by
  unfold distribute
  rw [Go.wp_ite]
  constructor
  · intro _
    rw [Go.wp_pure]
    refine ⟨Nat.le_refl _, .refl _ _, Conserved.refl _ _, fun c' hc' => ?_⟩
    rw [hc] at hc'; cases hc'; omega
  · intro _
    simp only [Go.wp_bind, Go.wp_idx]
    refine ⟨c, hc, ?_⟩
    refine Go.wp_mono (wp_drainOrdered hm c hf hn p) (fun r p1 hdr => ?_)
    obtain ⟨e1, ⟨removed, e2⟩, ⟨lost, e3, e3'⟩, e4, e5, e6⟩ := hdr.facts
    have hlen : self < h.length := (List.getElem?_eq_some_iff.1 hc).1
    have hdim := e2.dim hd
    have hev : HeapEvolves self h (h.set self r.2) := .set hc e2.evolves (fun h => absurd rfl h)
    have hset := flat_set hc r.2
    have hsetl := flat_set_length hc r.2
    refine Go.wp_mono (wp_distributeLoop hm self receivers r.1 (h.set self r.2) p1 r.2 (List.getElem?_set_self hlen)
      (by rw [e2.search.1]; exact hk) hdim.2 (by simpa using hr) (fun d hd' => by rw [hdim.1]; exact hd d (e6 d hd')))
      (fun h' p2 hq => ?_)
    obtain ⟨k1, k2, k3, lost', k4, k5⟩ := hq
    refine ⟨by omega, hev.trans k2, ⟨lost' ++ lost, by permc [k4, hset, e3], fun d hd' => ?_⟩, fun c' hc' => ?_⟩
    · rcases List.mem_append.1 hd' with h' | h'
      · exact k5 d h'
      · exact (e3' d h').mono hm (by omega)
    · have hl := k4.length_eq
      have hp := (k3 c' hc').length_le
      simp only [List.length_append, List.length_nil] at hl
      omega

end Centroid
end Trypo
