import Verif.Proofs.Manager5
import Verif.Spec.ManagerHistory
import Verif.Props.MathUtils

/-!
# Lemmas about histories of calls on a centroid manager
-/

set_option linter.unusedSectionVars false
set_option linter.unusedVariables false

namespace Trypo
open GoFloat Spec

variable {F : Type} [GoFloat F]

namespace Manager
open Centroid (flat flat_set CallOK DimOK Evolves RmSteps)

/-- What one call does to the manager, beyond conserving data. -/
def Shape (tk : Nat → Int) (p : Nat) (cm : Manager F) (cm' : Manager F) (p' : Nat) : ManagerCall F → Prop
  | .add d => cm' = cm ∨ AddShape tk p cm d cm' p'
  | .drainUnordered _ _ => Shrinks cm cm'
  | .drainOrdered _ _ => Shrinks cm cm'
  | .expire => Shrinks cm cm'
  | .memTrim => ∀ x ∈ cm'.centroids, x.dps ≠ [] ∧ ∃ c ∈ cm.centroids, x.dps.Sublist c.dps
  | .moveVector => List.Forall₂ (fun c c' => c'.dps.Sublist c.dps) cm.centroids cm'.centroids ∧
      (cm'.centroids ≠ [] → (vecMean cm'.centroidVecs).2 = true ∧ cm'.vec = (vecMean cm'.centroidVecs).1)
  | .distributeInternal _ _ =>
      (cm'.centroids ≠ [] → (vecMean cm'.centroidVecs).2 = true ∧ cm'.vec = (vecMean cm'.centroidVecs).1)
  | .knnLookup _ _ _ => Shrinks cm cm'
  | .nearestCentroids _ _ _ => ∃ removed, DelSteps cm removed cm'
  | .splitCentroids split => ∃ cm1 X, cm'.centroids = cm1.centroids ++ X ∧
      SplitLoopPost tk split (List.range cm.centroids.length) cm p cm1 X p'
  | .mergeCentroids merge => True

theorem wp_managerCall {tk : Nat → Int} (hm : MonoClock tk) (w : ManagerWorld F) (hw : w.cm.WF) (o : ManagerCall F)
    (ho : o.valid) (p : Nat) : Go.wp (o.run tk w) (fun w' p' => ∃ acc out, w'.accepted = acc ++ w.accepted ∧
      w'.out = w.out ++ out ∧ Eff tk p p' w.cm w'.cm acc out ∧ Shape tk p w.cm w'.cm p' o ∧ acc.length ≤ 1) p := by
  cases o with
  | add d =>
    simp only [ManagerCall.run, Go.wp_bind, Go.wp_pure]
    refine Go.wp_mono (wp_addDataPoint hm hw d p) (fun r p' hr => ?_)
    obtain ⟨h1, h2, h3, _, _⟩ := hr
    cases hb : r.1 with
    | true => exact ⟨[d], [], by simp, by simp, (h3 hb).eff hm hw, .inr (h3 hb), by simp⟩
    | false =>
      rw [h2 hb]
      exact ⟨[], [], by simp, by simp, ⟨h1, hw, .refl _, Conserved.refl _ _, fun _ => rfl⟩, .inl rfl, by simp⟩
  | drainUnordered n ord =>
    simp only [ManagerCall.run, Go.wp_bind, Go.wp_pure]
    exact Go.wp_mono (wp_drainUnordered hm ho.2 hw ho.1 p) (fun r p' hr => ⟨[], r.1, rfl, rfl, hr.1, hr.2.1, by simp⟩)
  | drainOrdered n ord =>
    simp only [ManagerCall.run, Go.wp_bind, Go.wp_pure]
    exact Go.wp_mono (wp_drainOrdered hm ho.2 hw ho.1 p) (fun r p' hr => ⟨[], r.1, rfl, rfl, hr.1, hr.2.1, by simp⟩)
  | expire =>
    simp only [ManagerCall.run, Go.wp_bind, Go.wp_pure]
    exact Go.wp_mono (wp_expire hm hw p) (fun r p' hr => ⟨[], [], rfl, by simp, hr.1, hr.2.1, by simp⟩)
  | memTrim =>
    simp only [ManagerCall.run, Go.wp_bind, Go.wp_pure]
    exact Go.wp_mono (wp_memTrim hm hw p) (fun r p' hr => ⟨[], [], rfl, by simp, hr.1, hr.2.2, by simp⟩)
  | moveVector =>
    simp only [ManagerCall.run, Go.wp_bind, Go.wp_pure]
    refine Go.wp_mono (wp_moveVector hm hw p) (fun r p' hr => ⟨[], [], rfl, by simp, hr.1, ⟨hr.2.2.1, fun hne => ?_⟩, by simp⟩)
    refine hr.2.2.2 (hr.2.1.2 (fun h0 => hne ?_))
    have := hr.2.2.1
    rw [h0] at this
    cases hc : r.2.centroids with
    | nil => rfl
    | cons a b => rw [hc] at this; cases this
  | distributeInternal n ord =>
    simp only [ManagerCall.run, Go.wp_bind, Go.wp_pure]
    refine Go.wp_mono (wp_distributeInternal hm ho.2 hw n p) (fun r p' hr => ⟨[], [], rfl, by simp, hr.1, fun hne => ?_, by simp⟩)
    refine hr.2.2.1 (fun h0 => hne ?_)
    have := hr.2.1
    rw [h0] at this
    exact List.length_eq_zero_iff.1 this
  | knnLookup v k drain =>
    simp only [ManagerCall.run, Go.wp_bind, Go.wp_pure]
    refine Go.wp_mono (wp_knnLookup hm hw v ho drain p) (fun r p' hr => ?_)
    obtain ⟨is, _, _, _, hp⟩ := hr
    exact ⟨[], _, rfl, rfl, hp.eff, hp.shrinks, by simp⟩
  | nearestCentroids v n drain =>
    simp only [ManagerCall.run, Go.wp_bind, Go.wp_pure]
    refine Go.wp_mono (wp_nearestCentroids hw v ho drain p) (fun r p' hr => ?_)
    obtain ⟨rfl, is, h1, h2, h3, h4, h5⟩ := hr
    by_cases his : is = []
    · rw [h4 his]
      exact ⟨[], [], rfl, by cases drain <;> simp, Eff.refl hw, ⟨[], .refl _⟩, by simp⟩
    · obtain ⟨cs, e1, e2, e3, e4⟩ := h5 his
      cases drain with
      | false =>
        rw [e3 rfl]
        exact ⟨[], [], rfl, by simp, Eff.refl hw, ⟨[], .refl _⟩, by simp⟩
      | true =>
        obtain ⟨removed, d1, d2⟩ := e4 rfl
        refine ⟨[], flat cs, rfl, by rw [e1]; rfl, ⟨Nat.le_refl _, d1.wf hw, d1.same, ?_, fun _ => d1.vec_length hw⟩, ⟨removed, d1⟩, by simp⟩
        refine Conserved.of_perm ?_
        have f1 := flat_perm d1.perm
        have f2 := flat_perm d2
        rw [flat_append] at f1
        permc [f1, f2]
  | splitCentroids split =>
    simp only [ManagerCall.run, Go.wp_bind, Go.wp_pure]
    refine Go.wp_mono (wp_splitCentroids hm hw split p) (fun r p' hr => ?_)
    obtain ⟨cm1, X, h1, h2, h3⟩ := hr
    exact ⟨[], [], rfl, by simp, h1, ⟨cm1, X, h2, h3⟩, by simp⟩
  | mergeCentroids merge =>
    simp only [ManagerCall.run, Go.wp_bind, Go.wp_pure]
    exact Go.wp_mono (wp_mergeCentroids hm hw merge p) (fun r p' hr => ⟨[], [], rfl, by simp, hr.1, trivial, by simp⟩)

/-- A history keeps whatever each of its calls keeps; `Inv` may depend on the number of calls to come. -/
theorem wp_managerCalls {tk : Nat → Int} (hm : MonoClock tk) (ok : ManagerCall F → Prop) (Inv : Nat → Manager F → Prop)
    (step : ∀ (n : Nat) (o : ManagerCall F) (cm cm' : Manager F) (p p' : Nat) (acc out : List (DataPoint F)), ok o → cm.WF →
      Inv (n + 1) cm → Shape tk p cm cm' p' o → Eff tk p p' cm cm' acc out → acc.length ≤ 1 → Inv n cm') :
    ∀ (os : List (ManagerCall F)) (w : ManagerWorld F) (p : Nat), w.cm.WF → Inv os.length w.cm →
      (∀ o ∈ os, o.valid ∧ ok o) → Go.wp (runManagerCalls tk os w) (fun w' p' => ∃ acc out,
        w'.accepted = acc ++ w.accepted ∧ w'.out = w.out ++ out ∧ Eff tk p p' w.cm w'.cm acc out ∧ Inv 0 w'.cm) p
  | [], w, p, hw, hi, _ => ⟨[], [], rfl, by simp, Eff.refl hw, hi⟩
  | o :: os, w, p, hw, hi, h => by
    unfold runManagerCalls
    rw [Go.wp_bind]
    refine Go.wp_mono (wp_managerCall hm w hw o (h o (by simp)).1 p) (fun w1 p1 h1 => ?_)
    obtain ⟨acc, out, a1, a2, a3, a4, a5⟩ := h1
    have hi' := step os.length o w.cm w1.cm p p1 acc out (h o (by simp)).2 hw hi a4 a3 a5
    refine Go.wp_mono (wp_managerCalls hm ok Inv step os w1 p1 a3.wf hi' (fun o' ho' => h o' (by simp [ho'])))
      (fun w2 p2 h2 => ?_)
    obtain ⟨acc', out', b1, b2, b3, b4⟩ := h2
    have ht := a3.trans hm b3
    refine ⟨acc' ++ acc, out ++ out', by rw [b1, a1, List.append_assoc], by rw [b2, a2, List.append_assoc],
      ⟨ht.le, ht.wf, ht.same, ?_, fun h => ht.len (fun d hd => h d (by simpa [or_comm] using hd))⟩, b4⟩
    refine ht.conserved.perm_before ?_
    permc [List.Perm.refl ([] : List (DataPoint F))]

theorem wp_runManager {tk : Nat → Int} (hm : MonoClock tk) (ok : ManagerCall F → Prop) (Inv : Nat → Manager F → Prop)
    (step : ∀ (n : Nat) (o : ManagerCall F) (cm cm' : Manager F) (p p' : Nat) (acc out : List (DataPoint F)), ok o → cm.WF →
      Inv (n + 1) cm → Shape tk p cm cm' p' o → Eff tk p p' cm cm' acc out → acc.length ≤ 1 → Inv n cm')
    (initVec : List F) {initCap : Int} (threshold : Int) {knn kfn : Search F} (os : List (ManagerCall F)) (p : Nat)
    (hcap : 0 ≤ initCap) (hk : GoodSearch knn) (hf : GoodSearch kfn)
    (hi : Inv os.length ⟨initVec, initCap, [], threshold, knn, kfn⟩) (h : ∀ o ∈ os, o.valid ∧ ok o) :
    Go.wp (runManager tk initVec initCap threshold knn kfn os) (fun w p' =>
      w.cm.WF ∧ Conserved (tk p') w.accepted w.stored w.out ∧ w.cm.threshold = threshold ∧ Inv 0 w.cm) p := by
  unfold runManager Manager.new
  simp only [Go.wp_bind, Go.wp_pure, Go.wp_checkMake]
  refine ⟨hcap, ?_⟩
  refine Go.wp_mono (wp_managerCalls hm ok Inv step os _ p ⟨hcap, ⟨hk, hf⟩, by simp, by simp⟩ hi h) (fun w p' hr => ?_)
  obtain ⟨acc, out, a1, a2, a3, a4⟩ := hr
  refine ⟨a3.wf, ?_, a3.same.thr, a4⟩
  have hc := a3.conserved
  rw [a1, a2]
  simpa [flat, ManagerWorld.stored] using hc

/-! ### Sizes -/

theorem shape_sizes {tk : Nat → Int} {o : ManagerCall F} {cm cm' : Manager F} {p p' : Nat} (hk : o.keepsSizes)
    (ht : 2 ≤ cm.threshold) (hs : ∀ c ∈ cm.centroids, (c.dps.length : Int) < cm.threshold) (h : Shape tk p cm cm' p' o) :
    ∀ c ∈ cm'.centroids, (c.dps.length : Int) < cm.threshold := by
  have hshr : ∀ {cm' : Manager F}, Shrinks cm cm' → ∀ c ∈ cm'.centroids, (c.dps.length : Int) < cm.threshold := by
    intro cm' hsh c hc
    obtain ⟨k, hk⟩ := List.mem_iff_getElem?.1 hc
    have hkl : k < cm.centroids.length := by rw [← hsh.length]; exact (List.getElem?_eq_some_iff.1 hk).1
    obtain ⟨c', h1, h2⟩ := hsh.pointwise (List.getElem?_eq_getElem hkl)
    rw [hk] at h1; cases h1
    have := h2.length_le
    have := hs _ (List.getElem_mem hkl)
    omega
  cases o with
  | add d =>
    rcases h with rfl | h
    · exact hs
    · cases h with
      | first h0 hd hs' hdim hp =>
        intro c hc
        rw [List.mem_singleton.1 hc]
        rcases hd with h | h
        · rw [h]; simp; omega
        · rw [h.1]; simp; omega
      | plain hc hl ht' hp =>
        intro c' hc'
        rcases List.mem_or_eq_of_mem_set hc' with h | rfl
        · exact hs c' h
        · simp only [Centroid.addRaw, List.length_append, List.length_singleton]
          push_cast
          omega
      | @split p1 _ j c c' nc cm1 hc hl ht1 ht2 hp hsp =>
        obtain ⟨pre, s1, s2, s3, s4, s5, s6, s7⟩ := hsp.shape
        have hcl := hs c (List.mem_of_getElem? hc)
        have hlen := congrArg List.length s2
        simp only [Centroid.addRaw, List.length_append, List.length_singleton] at hlen
        have hpre : pre ≠ [] := s7 (by simp [Centroid.addRaw])
        have hpos := List.length_pos_iff.2 hpre
        intro x hx
        rw [hsp.same.2.2] at hx
        rcases List.mem_append.1 hx with hx | hx
        · rw [upd_centroids, List.set_set] at hx
          rcases List.mem_or_eq_of_mem_set hx with hx | rfl
          · exact hs x hx
          · omega
        · rw [List.mem_singleton.1 hx, s3]
          have := (liveReads_sublist tk (liveReads tk p1 pre) (p1 + pre.length)).length_le
          have : cm.threshold.tdiv 2 < cm.threshold := by
            rw [Int.tdiv_eq_ediv_of_nonneg (by omega)]; omega
          have e : (cm.upd j c.vec (c.addRaw d)).threshold = cm.threshold := rfl
          omega
  | drainUnordered n ord => exact hshr h
  | drainOrdered n ord => exact hshr h
  | expire => exact hshr h
  | memTrim =>
    intro x hx
    obtain ⟨_, c, hc, hsub⟩ := h x hx
    have := hsub.length_le
    have := hs c hc
    omega
  | moveVector =>
    intro x hx
    obtain ⟨k, hk⟩ := List.mem_iff_getElem?.1 hx
    have hlen := h.1.length_eq
    have hkl := (List.getElem?_eq_some_iff.1 hk).1
    have := (List.forall₂_iff_get.1 h.1).2 k (by omega) hkl
    have hx2 := (List.getElem?_eq_some_iff.1 hk).2
    simp only [List.get_eq_getElem] at this
    rw [hx2] at this
    have := this.length_le
    have := hs _ (List.getElem_mem (show k < cm.centroids.length by omega))
    omega
  | distributeInternal n ord => exact hk.elim
  | knnLookup v k drain => exact hshr h
  | nearestCentroids v n drain =>
    obtain ⟨removed, hd⟩ := h
    exact fun c hc => hs c (hd.sublist.subset hc)
  | splitCentroids split =>
    obtain ⟨cm1, X, h1, h2⟩ := h
    intro x hx
    rw [h1] at hx
    rcases List.mem_append.1 hx with hx | hx
    · obtain ⟨k, hk⟩ := List.mem_iff_getElem?.1 hx
      have hkl : k < cm.centroids.length := by rw [← h2.length]; exact (List.getElem?_eq_some_iff.1 hk).1
      have := (h2.suffix k _ x (List.getElem?_eq_getElem hkl) hk).length_le
      have := hs _ (List.getElem_mem hkl)
      omega
    · obtain ⟨c, hc, hle⟩ := h2.small x hx
      have := hs c hc
      omega
  | mergeCentroids merge => exact hk.elim

/-! ### The manager vector as a mean, in exact arithmetic -/

/-- The manager vector is the mean of the centroid vectors. -/
def MMean (cm : Manager ℝ) : Prop := IsMean cm.vec cm.centroidVecs

theorem mmean_nil {cm : Manager ℝ} (h : cm.centroids = []) : cm.MMean := by
  intro j; simp [centroidVecs, h, compSum]

theorem mmean_of_vecMean {cm : Manager ℝ} (h : (vecMean cm.centroidVecs).2 = true) (h' : cm.vec = (vecMean cm.centroidVecs).1) :
    cm.MMean := by
  unfold MMean
  rw [h']
  exact (C01_vecMean_mean _ h).1

/-- All centroid vectors have the length of the manager vector. -/
def Lens (cm : Manager F) : Prop := ∀ c ∈ cm.centroids, c.vec.length = cm.vec.length

theorem WF.lens {cm : Manager F} (h : cm.WF) : cm.Lens := fun c hc => (h.dim c hc).1

theorem Lens.upd {cm : Manager F} (h : cm.Lens) {i : Nat} {c c' : Centroid F} (hc : cm.centroids[i]? = some c)
    (hl : c'.vec.length = c.vec.length) : (cm.upd i c.vec c').Lens := by
  have hcl := h c (List.mem_of_getElem? hc)
  have e : (cm.upd i c.vec c').vec.length = cm.vec.length :=
    updateVec_length ({ cm with centroids := cm.centroids.set i c' } : Manager F) hcl (hl.trans hcl)
  intro x hx
  rw [e]
  rcases List.mem_or_eq_of_mem_set hx with hx | rfl
  · exact h x hx
  · exact hl.trans hcl

theorem MMean.upd {cm : Manager ℝ} (h : cm.MMean) (hw : cm.Lens) {i : Nat} {c c' : Centroid ℝ}
    (hc : cm.centroids[i]? = some c) (hl : c'.vec.length = c.vec.length) : (cm.upd i c.vec c').MMean := by
  have hcl := hw c (List.mem_of_getElem? hc)
  obtain ⟨hi, hci⟩ := List.getElem?_eq_some_iff.1 hc
  intro j
  have hj := h j
  have hp1 : (c :: cm.centroids.eraseIdx i).Perm cm.centroids := Centroid.perm_eraseIdx hc
  have hp2 : (c' :: cm.centroids.eraseIdx i).Perm (cm.centroids.set i c') := by
    have hc2 : (cm.centroids.set i c')[i]? = some c' := List.getElem?_set_self hi
    have := Centroid.perm_eraseIdx hc2
    rwa [List.eraseIdx_set_eq] at this
  have e1 := compSum_perm (j := j) (hp1.map (fun c => c.vec))
  have e2 := compSum_perm (j := j) (hp2.map (fun c => c.vec))
  rw [List.map_cons, compSum_cons] at e1 e2
  have hpos : (cm.centroids.length : ℝ) ≠ 0 := by
    have : cm.centroids.length ≠ 0 := by omega
    exact_mod_cast this
  unfold centroidVecs at hj ⊢
  simp only [Manager.upd, Manager.updateVec, List.length_map, List.length_set] at hj ⊢
  rw [comp_div, comp_vecAdd _ _ _ ?_, comp_vecSub _ _ _ ?_, comp_mul]
  · simp only [rofNat] at *
    rw [hj, ← e1, ← e2]
    field_simp
    ring
  · simp [vecMulScalar, hcl]
  · simp [vecSub, vecMulScalar, hcl, hl]

theorem MMean.shrinks {cm cm' : Manager ℝ} (h : Shrinks cm cm') (hw : cm.Lens) (hmm : cm.MMean) : cm'.MMean := by
  induction h with
  | refl => exact hmm
  | step hc hl hs rest ih => exact ih (hw.upd hc hl) (hmm.upd hw hc hl)

theorem MMean.drop {cm : Manager ℝ} (h : cm.MMean) (hw : cm.Lens) {i : Nat} {c : Centroid ℝ}
    (hc : cm.centroids[i]? = some c) :
    ({ cm.dropVec c.vec with centroids := cm.centroids.eraseIdx i } : Manager ℝ).MMean := by
  have hcl := hw c (List.mem_of_getElem? hc)
  have hp1 : (c :: cm.centroids.eraseIdx i).Perm cm.centroids := Centroid.perm_eraseIdx hc
  have hlen := hp1.length_eq
  rw [List.length_cons] at hlen
  by_cases h0 : (cm.centroids.eraseIdx i).length = 0
  · exact mmean_nil (List.length_eq_zero_iff.1 h0)
  intro j
  have hj := h j
  have e1 := compSum_perm (j := j) (hp1.map (fun c => c.vec))
  rw [List.map_cons, compSum_cons] at e1
  unfold centroidVecs at hj ⊢
  simp only [dropVec, List.length_map] at hj ⊢
  rw [comp_div, comp_vecSub _ _ _ (by simp [vecMulScalar, hcl]), comp_mul]
  have hl1 : cm.centroids.length - 1 = (cm.centroids.eraseIdx i).length := by omega
  have hpos : ((cm.centroids.eraseIdx i).length : ℝ) ≠ 0 := by exact_mod_cast h0
  simp only [rofNat] at *
  rw [hl1, hj, ← e1]
  field_simp
  ring

theorem MMean.delSteps {cm cm' : Manager ℝ} {removed : List (Centroid ℝ)} (h : DelSteps cm removed cm') (hw : cm.Lens)
    (hmm : cm.MMean) : cm'.MMean := by
  induction h with
  | refl => exact hmm
  | @step cm cm' j c removed hc rest ih =>
    refine ih (fun x hx => ?_) (hmm.drop hw hc)
    show x.vec.length = (cm.dropVec c.vec).vec.length
    rw [dropVec_length cm (hw c (List.mem_of_getElem? hc))]
    exact hw x ((List.eraseIdx_sublist _ _).subset hx)

/-- All datapoints of the manager together with the calls to come are fewer than the threshold, or the threshold is at
most 1: no call of `AddDataPoint` splits a centroid. -/
def NoSplit (n : Nat) (cm : Manager F) : Prop :=
  cm.threshold ≤ 1 ∨ ((flat cm.centroids).length + n : Int) < cm.threshold

theorem Conserved.length_le {t : Int} {before after out : List (DataPoint F)} (h : Conserved t before after out) :
    after.length ≤ before.length := by
  obtain ⟨l, h, _⟩ := h
  have := h.length_eq
  simp only [List.length_append] at this
  omega

theorem NoSplit.step {tk : Nat → Int} {n p p' : Nat} {cm cm' : Manager F} {acc out : List (DataPoint F)} (h : NoSplit (n + 1) cm)
    (he : Eff tk p p' cm cm' acc out) (ha : acc.length ≤ 1) : NoSplit n cm' := by
  unfold NoSplit at *
  rw [he.same.thr]
  have := Conserved.length_le he.conserved
  rw [List.length_append] at this
  rcases h with h | h
  · exact .inl h
  · right; push_cast at h; omega

theorem shape_mean {tk : Nat → Int} {n : Nat} {o : ManagerCall ℝ} {cm cm' : Manager ℝ} {p p' : Nat} (hk : o.tracksVec)
    (hw : cm.WF) (hns : NoSplit (n + 1) cm) (hmm : cm.MMean) (h : Shape tk p cm cm' p' o) : cm'.MMean := by
  cases o with
  | add d =>
    rcases h with rfl | h
    · exact hmm
    · cases h with
      | first h0 hd hs' hdim hp => intro j; simp [centroidVecs, compSum]
      | plain hc hl ht' hp => exact hmm.upd hw.lens hc (Centroid.addRaw_vec_length hl)
      | @split p1 _ j c c' nc cm1 hc hl ht1 ht2 hp hsp =>
        exfalso
        unfold NoSplit at hns
        obtain ⟨lo, hlo⟩ := (List.mem_iff_append.1 (List.mem_of_getElem? hc))
        obtain ⟨hi, hhi⟩ := hlo
        have : c.dps.length ≤ (flat cm.centroids).length := by
          rw [hhi, flat_append, flat_cons]
          simp only [List.length_append]
          omega
        push_cast at hns
        omega
  | drainUnordered n ord => exact hmm.shrinks h hw.lens
  | drainOrdered n ord => exact hmm.shrinks h hw.lens
  | expire => exact hmm.shrinks h hw.lens
  | memTrim => exact hk.elim
  | moveVector =>
    by_cases h0 : cm'.centroids = []
    · exact mmean_nil h0
    · exact mmean_of_vecMean (h.2 h0).1 (h.2 h0).2
  | distributeInternal n ord =>
    by_cases h0 : cm'.centroids = []
    · exact mmean_nil h0
    · exact mmean_of_vecMean (h h0).1 (h h0).2
  | knnLookup v k drain => exact hmm.shrinks h hw.lens
  | nearestCentroids v n drain =>
    obtain ⟨removed, hd⟩ := h
    exact hmm.delSteps hd hw.lens
  | splitCentroids split => exact hk.elim
  | mergeCentroids merge => exact hk.elim

/-! ### Exact draining -/

/-- The share of centroid `k` in a list of portions. -/
def share (es : List (Nat × Nat)) (k : Nat) : Nat := ((es.filter (fun e => e.1 = k)).map (fun e => e.2)).sum

theorem share_perm {a b : List (Nat × Nat)} (h : a.Perm b) (k : Nat) : share a k = share b k :=
  ((h.filter _).map _).sum_eq

theorem share_cons_ne {i k v : Nat} {es : List (Nat × Nat)} (h : i ≠ k) : share ((i, v) :: es) k = share es k := by
  simp [share, h]

theorem share_cons_eq {k v : Nat} {es : List (Nat × Nat)} : share ((k, v) :: es) k = v + share es k := by
  simp [share]

theorem share_none {k : Nat} {es : List (Nat × Nat)} (h : k ∉ es.map (fun e => e.1)) : share es k = 0 := by
  unfold share
  rw [List.filter_eq_nil_iff.2]
  · rfl
  · intro e he
    simp only [decide_eq_true_eq]
    exact fun hk => h (List.mem_map.2 ⟨e, he, hk⟩)

theorem share_zipIdx : ∀ (l : List Nat) (o k : Nat),
    share (((l.zipIdx o).filter (fun q => q.1 ≠ 0)).map (fun q => (q.2, q.1))) (o + k) = l.getD k 0
  | [], o, k => by simp [share]
  | v :: l, o, k => by
    rw [List.zipIdx_cons]
    cases k with
    | zero =>
      have hz : share (((l.zipIdx (o + 1)).filter (fun q => q.1 ≠ 0)).map (fun q => (q.2, q.1))) o = 0 := by
        refine share_none (fun h => ?_)
        obtain ⟨e, he, hk⟩ := List.mem_map.1 h
        obtain ⟨q, hq, rfl⟩ := List.mem_map.1 he
        have := List.le_snd_of_mem_zipIdx (List.mem_filter.1 hq).1
        simp only at hk
        omega
      by_cases hv : v = 0
      · rw [List.filter_cons_of_neg (by simp [hv])]
        simpa [hv] using hz
      · rw [List.filter_cons_of_pos (by simp [hv]), List.map_cons, Nat.add_zero]
        have hs := @share_cons_eq o v (((l.zipIdx (o + 1)).filter (fun q => q.1 ≠ 0)).map (fun q => (q.2, q.1)))
        rw [hz] at hs
        exact hs
    | succ k =>
      have ih := share_zipIdx l (o + 1) k
      have e : o + 1 + k = o + (k + 1) := by omega
      rw [e] at ih
      by_cases hv : v = 0
      · rw [List.filter_cons_of_neg (by simp [hv])]
        simpa using ih
      · rw [List.filter_cons_of_pos (by simp [hv]), List.map_cons, share_cons_ne (by simp only; omega)]
        simpa using ih

theorem wp_drainLoop_exact {tk : Nat → Int} (hm : MonoClock tk) : ∀ (es : List (Nat × Nat)) (cm : Manager F)
    (res : List (DataPoint F)) (p : Nat), cm.WF → (es.map (fun e => e.1)).Nodup →
    (∀ e ∈ es, ∃ c, cm.centroids[e.1]? = some c ∧ e.2 ≤ c.dps.length) → (∀ d ∈ flat cm.centroids, ∀ q, ¬ Dead (tk q) d) →
    Go.wp (drainLoop (fun c k => c.drainUnordered tk k) es cm res)
      (fun r _ => r.1.length = res.length + (es.map (fun e => e.2)).sum ∧
        ∀ (k : Nat) (c : Centroid F), cm.centroids[k]? = some c →
          ∃ c', r.2.centroids[k]? = some c' ∧ c'.dps = c.dps.drop (share es k)) p
  | [], cm, res, p, hw, _, _, _ => by
    simp only [drainLoop, Go.wp_pure]
    exact ⟨by simp, fun k c hc => ⟨c, hc, by simp [share]⟩⟩
  | (i, k) :: es, cm, res, p, hw, hnd, hr, hl => by
    unfold drainLoop
    obtain ⟨c, hc, hck⟩ := hr (i, k) (by simp)
    have hcm := List.mem_of_getElem? hc
    simp only [List.map_cons, List.nodup_cons] at hnd
    rw [Go.wp_bind]
    refine Go.wp_mono (wp_onCentroid (tk := tk) hw hc (fun c => c.drainUnordered tk k)
      (R := fun c' out _ _ => c'.dps = c.dps.drop k ∧ out.length = k) ?_)
      (fun r p1 h1 => ?_)
    · refine Go.wp_mono (Go.wp_and (Centroid.wp_drainUnordered tk c (n := k) (by omega) p)
        (Centroid.callOK_drainUnordered hm c (hw.dim c hcm).2 (n := k) (by omega) p)) (fun r p' hr => ?_)
      obtain ⟨⟨pre, h1, h2, h3, h4, h5, h6, h7⟩, hok, _⟩ := hr
      have hid : r.1 = pre := by
        rw [h3]
        refine liveReads_id pre p (fun d hd => hl d (flat_mem hc ?_))
        rw [h2]; exact List.mem_append_left _ hd
      have hlen : r.1.length = k := by
        by_cases hlt : (r.1.length : Int) < k
        · have hnil := h6 hlt
          rw [hnil, List.append_nil] at h2
          rw [hid, ← h2] at hlt
          simp only at hck
          omega
        · omega
      refine ⟨r.1, hok, ?_, hlen⟩
      rw [h2, ← hlen, hid, List.drop_left]
    · obtain ⟨out, c', e1, e2, e3, e4, e5⟩ := h1
      have hw1 := e1.wf
      rw [e2] at hw1 ⊢
      have hlc := (List.getElem?_eq_some_iff.1 hc).1
      refine Go.wp_mono (wp_drainLoop_exact hm es _ _ p1 hw1 hnd.2 (fun e he => ?_) (fun d hd => ?_)) (fun s p2 hs => ?_)
      · obtain ⟨x, hx, hxl⟩ := hr e (by simp [he])
        have hne : i ≠ e.1 := fun h => hnd.1 (List.mem_map.2 ⟨e, he, h.symm⟩)
        exact ⟨x, by rw [upd_centroids, List.getElem?_set_ne hne]; exact hx, hxl⟩
      · obtain ⟨x, hx, hdx⟩ := List.mem_flatMap.1 hd
        rcases List.mem_or_eq_of_mem_set hx with hx | rfl
        · exact hl d (List.mem_flatMap.2 ⟨x, hx, hdx⟩)
        · rw [e4] at hdx
          exact hl d (flat_mem hc (List.mem_of_mem_drop hdx))
      · obtain ⟨s1, s2⟩ := hs
        constructor
        · rw [s1, List.length_append, e5]
          simp only [List.map_cons, List.sum_cons]
          omega
        · intro m x hx
          by_cases hmi : m = i
          · subst hmi
            rw [hc] at hx; cases hx
            obtain ⟨x', g1, g2⟩ := s2 m c' (by rw [upd_centroids, List.getElem?_set_self hlc])
            refine ⟨x', g1, ?_⟩
            rw [g2, e4, share_cons_eq, share_none hnd.1]
            simp
          · obtain ⟨x', g1, g2⟩ := s2 m x (by rw [upd_centroids, List.getElem?_set_ne (Ne.symm hmi)]; exact hx)
            refine ⟨x', g1, ?_⟩
            rw [g2, share_cons_ne (Ne.symm hmi)]

theorem lenDP_eq (cm : Manager F) : cm.lenDP = (flat cm.centroids).length := by
  unfold lenDP flat Centroid.lenDP
  rw [List.length_flatMap]

theorem wp_drainUnordered_exact {tk : Nat → Int} (hm : MonoClock tk) {ord : List (Nat × Nat) → List (Nat × Nat)} (ho : OrdOK ord)
    {cm : Manager F} (hw : cm.WF) {n : Nat} (hn : 1 ≤ n) (hl : ∀ d ∈ flat cm.centroids, ∀ q, ¬ Dead (tk q) d) (p : Nat) :
    Go.wp (cm.drainUnordered tk ord n) (fun r _ => r.1.length = min n cm.lenDP ∧
      ∀ (k : Nat) (c : Centroid F), cm.centroids[k]? = some c → ∃ c', r.2.centroids[k]? = some c' ∧
        c'.dps = c.dps.drop ((portions (cm.centroids.map (fun c => c.lenDP)) n).getD k 0)) p := by
  unfold drainUnordered
  simp only [Go.wp_bind, Go.wp_checkMake]
  refine ⟨by omega, ?_⟩
  have hperm := ho (cm.portionEntries n)
  refine Go.wp_mono (wp_drainLoop_exact hm _ cm [] p hw ?_ (fun e he => ?_) hl) (fun r p' hr => ?_)
  · exact (hperm.map _).nodup_iff.2 (entries_nodup cm n)
  · obtain ⟨_, _, c, h1, h2⟩ := entries_mem (i := e.1) (v := e.2) (hperm.subset he)
    exact ⟨c, h1, h2⟩
  · obtain ⟨h1, h2⟩ := hr
    constructor
    · rw [h1, List.length_nil, Nat.zero_add, (hperm.map _).sum_eq, entries_sum]
      obtain ⟨A, B, r, h1, h2, h3⟩ := portions_spec (cm.centroids.map (fun c => c.lenDP)) hn
      rw [h3]; rfl
    · intro k c hc
      obtain ⟨c', g1, g2⟩ := h2 k c hc
      refine ⟨c', g1, ?_⟩
      rw [g2, share_perm hperm]
      have := share_zipIdx (portions (cm.centroids.map (fun c => c.lenDP)) n) 0 k
      rw [Nat.zero_add] at this
      unfold portionEntries
      rw [this]

/-! ### Exact lookup -/

/-- Number of datapoints with a comparable score in the centroid at index `i`. -/
def candAt (score : DataPoint F → Option F) (asc : Bool) (cs : List (Centroid F)) (i : Nat) : Nat :=
  candidates score asc (atD cs i)

theorem wp_lookupLoop_exact [LawfulCmp F] {tk : Nat → Int} (hm : MonoClock tk) (asc : Bool)
    (dist : List F → List F → Option F) (v : List F) (k : Nat) (drain : Bool) :
    ∀ (is : List Nat) (cm : Manager F) (res : List (DataPoint F)) (p : Nat), cm.WF → is.Nodup →
      (∀ i ∈ is, i < cm.centroids.length) → cm.knn = (fun t pl k => knnBrute t pl k asc dist) → res.length ≤ k →
      (∀ d ∈ flat cm.centroids, ∀ q, ¬ Dead (tk q) d) →
      Go.wp (lookupLoop tk v k drain is cm res) (fun r _ => r.1.length =
        min k (res.length + (is.map (candAt (fun d => dist v d.vec) asc cm.centroids)).sum)) p
  | [], cm, res, p, _, _, _, _, hl, _ => by
    simp only [lookupLoop, Go.wp_pure, List.map_nil, List.sum_nil]
    omega
  | i :: is, cm, res, p, hw, hnd, hr, hk, hl, hlive => by
    unfold lookupLoop
    rw [Go.wp_ite]
    refine ⟨fun h => ?_, fun h => ?_⟩
    · rw [Go.wp_pure]; simp only; omega
    · have hil := hr i (by simp)
      have hc : cm.centroids[i]? = some cm.centroids[i] := List.getElem?_eq_getElem hil
      have hcm := List.getElem_mem hil
      generalize cm.centroids[i] = c at hc hcm
      rw [List.nodup_cons] at hnd
      have hck : c.knn = fun t pl k => knnBrute t pl k asc dist := by rw [(hw.search c hcm).1, hk]
      have hcok : SearchOK c.knn := by rw [(hw.search c hcm).1]; exact hw.good.1
      have hkk : ((k - res.length : Nat) : Int) = (k : Int) - res.length := by omega
      have hlc : ∀ d ∈ c.dps, ∀ q, ¬ Dead (tk q) d := fun d hd => hlive d (flat_mem hc hd)
      rw [Go.wp_bind]
      refine Go.wp_mono (wp_onCentroid (tk := tk) hw hc _ (R := fun c' res' _ _ => c'.dps.Sublist c.dps ∧
        res'.length = res.length + min (k - res.length) (candidates (fun d => dist v d.vec) asc c.dps)) ?_) (fun r p1 h1 => ?_)
      · rw [Go.wp_bind, ← hkk]
        refine Go.wp_mono (Go.wp_and (Centroid.wp_knnLookup hm c hcok v (n := ((k - res.length : Nat) : Int)) (by omega) drain p)
          (Centroid.callOK_knnLookup hm c hcok (hw.dim c hcm).2 v (k := ((k - res.length : Nat) : Int)) (by omega) drain p))
          (fun q p1 hq => ?_)
        obtain ⟨hq, hok, _⟩ := hq
        have key : (q.2.dps.Sublist c.dps ∧ q.1.length ≤ k - res.length) ∧
            q.1.length = min (k - res.length) (candidates (fun d => dist v d.vec) asc c.dps) := by
          have hsurv : ∀ surv, Survivors (tk p) (tk p1) c.dps surv → surv = c.dps := by
            intro surv hs
            have h1 := hs.keeps
            have h2 := hs.drops
            rw [List.filter_eq_self.2 (fun d hd => by simpa using hlc d hd _)] at h1 h2
            exact (h2.antisymm h1)
          rw [hck] at hq
          cases drain with
          | true =>
            rw [if_pos rfl] at hq
            obtain ⟨surv, h1, h2, h3, h4, h5⟩ := Centroid.DrainEffect.best hq
            have := hsurv surv h1; subst this
            exact ⟨⟨h3, by omega⟩, h5⟩
          | false =>
            rw [if_neg (by simp)] at hq
            obtain ⟨rest, h1, h2, h3⟩ := Centroid.LookupEffect.best hq
            obtain ⟨_, hp, _⟩ := Centroid.LookupEffect.facts hq
            have := hsurv _ hp.survivors
            rw [this] at h3
            exact ⟨⟨by rw [this], by omega⟩, h3⟩
        refine Go.wp_mono (wp_lookupTake tk k drain q.1 res q.2 p1 (by omega)) (fun s p2 hs => ?_)
        obtain ⟨rfl, rfl⟩ := hs
        exact ⟨_, hok, key.1.1, by simp only [List.length_append]; omega⟩
      · obtain ⟨out, c', e1, e2, e3, e4, e5⟩ := h1
        have hw1 := e1.wf
        rw [e2] at hw1 ⊢
        refine Go.wp_mono (wp_lookupLoop_exact hm asc dist v k drain is _ r.1 p1 hw1 hnd.2
          (fun j hj => by rw [upd_centroids, List.length_set]; exact hr j (by simp [hj])) hk (by omega) (fun d hd => ?_))
          (fun s p2 hs => ?_)
        · obtain ⟨x, hx, hdx⟩ := List.mem_flatMap.1 hd
          rcases List.mem_or_eq_of_mem_set hx with hx | rfl
          · exact hlive d (List.mem_flatMap.2 ⟨x, hx, hdx⟩)
          · exact hlc d (e4.subset hdx)
        · have hcong : is.map (candAt (fun d => dist v d.vec) asc (cm.upd i c.vec c').centroids) =
              is.map (candAt (fun d => dist v d.vec) asc cm.centroids) := by
            refine List.map_congr_left (fun j hj => ?_)
            have hne : i ≠ j := fun h => hnd.1 (h ▸ hj)
            unfold candAt atD
            rw [upd_centroids, List.getElem?_set_ne hne]
          rw [hcong, e5] at hs
          rw [hs, List.map_cons, List.sum_cons]
          have : candAt (fun d => dist v d.vec) asc cm.centroids i = candidates (fun d => dist v d.vec) asc c.dps := by
            unfold candAt; rw [atD_get hc]
          rw [this]
          omega

end Manager

theorem Spec.ManagerOK.wf {cm : Manager F} (h : ManagerOK cm) : cm.WF := ⟨h.cap, h.good, h.search, h.dim⟩
theorem Manager.WF.ok {cm : Manager F} (h : cm.WF) : ManagerOK cm := ⟨h.cap, h.good, h.search, h.dim⟩

/-- A witness computed by running. -/
theorem exists_of_run {α β : Type} [DecidableEq β] {m : Go α} {p : Nat} {f : α → β} {b : β}
    (h : (m p).map (fun r => f r.1) = .ok b) : ∃ a p', m p = .ok (a, p') ∧ f a = b := by
  cases hm : m p with
  | error e => rw [hm] at h; cases h
  | ok r => rw [hm] at h; exact ⟨r.1, r.2, rfl, by simpa [Except.map] using h⟩

end Trypo
