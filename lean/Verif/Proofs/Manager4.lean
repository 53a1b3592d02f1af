import Verif.Proofs.Manager3

/-!
# Lemmas about pkg/kmeans/centroidmanager: NearestCentroids, SplitCentroids, MergeCentroids
-/

set_option linter.unusedSectionVars false
set_option linter.unusedVariables false

namespace Trypo
open GoFloat Spec

variable {F : Type} [GoFloat F]

namespace Manager
open Centroid (flat flat_set CallOK DimOK Evolves RmSteps)

/-! ### Deleting centroids -/

theorem wp_getAll (cm : Manager F) : ∀ (is : List Nat) (p : Nat), (∀ i ∈ is, i < cm.centroids.length) →
    Go.wp (getAll is cm) (fun cs p' => p' = p ∧ is.map (fun i => cm.centroids[i]?) = cs.map some) p
  | [], p, _ => by simp [getAll]
  | i :: is, p, h => by
    unfold getAll
    simp only [Go.wp_bind, Go.wp_idx]
    refine ⟨cm.centroids[i]'(h i (by simp)), List.getElem?_eq_getElem _, ?_⟩
    refine Go.wp_mono (wp_getAll cm is p (fun j hj => h j (by simp [hj]))) (fun ds p' hp => ?_)
    simp only [Go.wp_pure, List.map_cons, hp.2, hp.1, true_and]
    rw [List.getElem?_eq_getElem (h i (by simp))]

/-- Deleting centroids one after the other, with the vector adjusted at every step. -/
inductive DelSteps : Manager F → List (Centroid F) → Manager F → Prop
  | refl (cm : Manager F) : DelSteps cm [] cm
  | step {cm cm' : Manager F} {j : Nat} {c : Centroid F} {removed : List (Centroid F)} (hc : cm.centroids[j]? = some c)
      (rest : DelSteps { cm.dropVec c.vec with centroids := cm.centroids.eraseIdx j } removed cm') :
      DelSteps cm (c :: removed) cm'

theorem DelSteps.perm {cm cm' : Manager F} {removed : List (Centroid F)} (h : DelSteps cm removed cm') :
    (removed ++ cm'.centroids).Perm cm.centroids := by
  induction h with
  | refl => exact List.Perm.refl _
  | step hc rest ih => exact (ih.cons _).trans (Centroid.perm_eraseIdx hc)

theorem DelSteps.sublist {cm cm' : Manager F} {removed : List (Centroid F)} (h : DelSteps cm removed cm') :
    cm'.centroids.Sublist cm.centroids := by
  induction h with
  | refl => exact List.Sublist.refl _
  | step hc rest ih => exact ih.trans (List.eraseIdx_sublist _ _)

theorem DelSteps.same {cm cm' : Manager F} {removed : List (Centroid F)} (h : DelSteps cm removed cm') : Same cm cm' := by
  induction h with
  | refl => exact .refl _
  | step hc rest ih => exact ⟨ih.knn, ih.kfn, ih.cap, ih.thr⟩

theorem DelSteps.wf {cm cm' : Manager F} {removed : List (Centroid F)} (h : DelSteps cm removed cm') (hw : cm.WF) : cm'.WF := by
  induction h with
  | refl => exact hw
  | @step cm cm' j c removed hc rest ih =>
    refine ih ⟨hw.cap, hw.good, fun x hx => hw.search x ((List.eraseIdx_sublist _ _).subset hx), fun x hx => ?_⟩
    show x.vec.length = (cm.dropVec c.vec).vec.length ∧ _
    rw [dropVec_length _ (hw.dim c (List.mem_of_getElem? hc)).1]
    exact hw.dim x ((List.eraseIdx_sublist _ _).subset hx)

theorem DelSteps.vec_length {cm cm' : Manager F} {removed : List (Centroid F)} (h : DelSteps cm removed cm') (hw : cm.WF) :
    cm'.vec.length = cm.vec.length := by
  induction h with
  | refl => rfl
  | @step cm cm' j c removed hc rest ih =>
    have hl : (cm.dropVec c.vec).vec.length = cm.vec.length := dropVec_length _ (hw.dim c (List.mem_of_getElem? hc)).1
    exact (ih ((DelSteps.step hc (.refl _)).wf hw)).trans hl

theorem wp_deleteAll : ∀ (is : List Nat) (cm : Manager F) (p : Nat), is.Pairwise (· > ·) → (∀ i ∈ is, i < cm.centroids.length) →
    Go.wp (deleteAll is cm) (fun cm' p' => p' = p ∧ (∃ removed, DelSteps cm removed cm' ∧
        is.map (fun i => cm.centroids[i]?) = removed.map some) ∧
      ∀ e ∈ cm'.centroids, ∃ j : Nat, j ∉ is ∧ cm.centroids[j]? = some e) p
  | [], cm, p, _, _ => by
    unfold deleteAll
    rw [Go.wp_pure]
    refine ⟨rfl, ⟨[], .refl cm, rfl⟩, fun e he => ?_⟩
    obtain ⟨j, hj⟩ := List.mem_iff_getElem?.1 he
    exact ⟨j, by simp, hj⟩
  | i :: is, cm, p, hd, h => by
    have hi := h i (by simp)
    rw [List.pairwise_cons] at hd
    unfold deleteAll deleteAt
    have hget : cm.centroids[i]? = some cm.centroids[i] := List.getElem?_eq_getElem hi
    simp only [Go.wp_bind, Go.wp_pure, Go.wp_idx]
    refine ⟨_, hget, ?_⟩
    have hlt : ∀ j ∈ is, j < i := fun j hj => hd.1 j hj
    refine Go.wp_mono (wp_deleteAll is _ p hd.2 (fun j hj => ?_)) (fun c' p' hp => ?_)
    · show j < (cm.centroids.eraseIdx i).length
      rw [List.length_eraseIdx_of_lt hi]
      have := hlt j hj
      omega
    · obtain ⟨h1, ⟨removed, h2, h3⟩, h4⟩ := hp
      refine ⟨h1, ⟨cm.centroids[i] :: removed, .step hget h2, ?_⟩, ?_⟩
      · rw [List.map_cons, List.map_cons, hget, ← h3]
        congr 1
        apply List.map_congr_left
        intro j hj
        show _ = (cm.centroids.eraseIdx i)[j]?
        rw [List.getElem?_eraseIdx_of_lt (hlt j hj)]
      · intro e he
        obtain ⟨j, hj1, hj2⟩ := h4 e he
        change (cm.centroids.eraseIdx i)[j]? = some e at hj2
        rcases Nat.lt_or_ge j i with hji | hji
        · rw [List.getElem?_eraseIdx_of_lt hji] at hj2
          exact ⟨j, by simp [hj1]; omega, hj2⟩
        · rw [List.getElem?_eraseIdx_of_ge hji] at hj2
          refine ⟨j + 1, ?_, hj2⟩
          intro hm
          rcases List.mem_cons.1 hm with hm | hm
          · omega
          · have := hlt _ hm; omega

/-- What `NearestCentroids` does. -/
theorem wp_nearestCentroids {cm : Manager F} (hw : cm.WF) (v : List F) {n : Int} (hn : 0 ≤ n) (drain : Bool) (p : Nat) :
    Go.wp (cm.nearestCentroids v n drain) (fun r p' => p' = p ∧ ∃ is, cm.knn v cm.centroidVecs n = .ok is ∧ is.Nodup ∧
      (is.length : Int) ≤ n ∧ (is = [] → r = (none, cm)) ∧
      (is ≠ [] → ∃ cs, r.1 = some cs ∧ is.map (fun i => cm.centroids[i]?) = cs.map some ∧
        (drain = false → r.2 = cm) ∧ (drain = true → ∃ removed, DelSteps cm removed r.2 ∧ removed.Perm cs))) p := by
  unfold nearestCentroids
  obtain ⟨is, h1, h2, h3, h4⟩ := hw.good.1 v cm.centroidVecs n hn
  have hr : ∀ i ∈ is, i < cm.centroids.length := by
    intro i hi; have := h3 i hi; rwa [centroidVecs, List.length_map] at this
  simp only [Go.wp_bind, Go.wp_lift]
  refine ⟨is, h1, ?_⟩
  rw [Go.wp_ite]
  refine ⟨fun h0 => ?_, fun h0 => ?_⟩
  · rw [Go.wp_pure]
    have h0 := List.length_eq_zero_iff.1 h0
    exact ⟨rfl, is, h1, h2, h4, fun _ => rfl, fun h => absurd h0 h⟩
  · have hne : is ≠ [] := fun h => h0 (by simp [h])
    simp only [Go.wp_checkMake, Go.wp_bind]
    refine ⟨hn, Go.wp_mono (wp_getAll cm is p hr) (fun cs p1 hcs => ?_)⟩
    obtain ⟨rfl, hcs⟩ := hcs
    rw [Go.wp_ite]
    refine ⟨fun hd => ?_, fun hd => ?_⟩
    · rw [Go.wp_bind]
      have hperm : (Centroid.sortInts is).reverse.Perm is := (List.reverse_perm _).trans (Centroid.sortInts_perm is)
      refine Go.wp_mono (wp_deleteAll _ cm p1 (Centroid.sortInts_desc h2) (fun i hi => hr i (hperm.mem_iff.1 hi)))
        (fun cm' p2 hcm => ?_)
      obtain ⟨rfl, ⟨removed, e1, e2⟩, _⟩ := hcm
      rw [Go.wp_pure]
      refine ⟨rfl, is, h1, h2, h4, fun h => absurd h hne, fun _ => ⟨cs, rfl, hcs, by simp [hd], fun _ => ⟨removed, e1, ?_⟩⟩⟩
      have h5 : (removed.map some).Perm (cs.map some) := by
        rw [← e2, ← hcs]; exact hperm.map _
      exact (List.map_perm_map_iff (Option.some_injective _)).1 h5
    · rw [Go.wp_pure]
      exact ⟨rfl, is, h1, h2, h4, fun h => absurd h hne, fun _ => ⟨cs, rfl, hcs, fun _ => rfl, fun h => absurd h hd⟩⟩

theorem flat_perm {a b : List (Centroid F)} (h : a.Perm b) : (flat a).Perm (flat b) := h.flatMap_right _

/-! ### SplitCentroids -/

theorem liveReads_id {tk : Nat → Int} : ∀ (l : List (DataPoint F)) (p : Nat), (∀ d ∈ l, ∀ q, ¬ Dead (tk q) d) →
    liveReads tk p l = l
  | [], _, _ => rfl
  | d :: l, p, h => by
    rw [liveReads_cons, if_neg (fun he => h d (by simp) p ((expiredAt_iff _ _).1 he)),
      liveReads_id l (p + 1) (fun e he => h e (by simp [he]))]

theorem flat_mem {cs : List (Centroid F)} {i : Nat} {c : Centroid F} (hc : cs[i]? = some c) {d : DataPoint F} (hd : d ∈ c.dps) :
    d ∈ flat cs := List.mem_flatMap.2 ⟨c, List.mem_of_getElem? hc, hd⟩

/-- Is the centroid at index `i` one that gets split? -/
def Chosen (split : Centroid F → Bool) (cs : List (Centroid F)) (i : Nat) : Prop :=
  ∃ c, cs[i]? = some c ∧ split c = true ∧ 2 ≤ c.dps.length

/-- What the splitting loop over the indexes `is` guarantees. -/
structure SplitLoopPost (tk : Nat → Int) (split : Centroid F → Bool) (is : List Nat) (cm : Manager F) (p : Nat)
    (cm' : Manager F) (X : List (Centroid F)) (p' : Nat) : Prop where
  le : p ≤ p'
  wf : cm'.WF
  same : Same cm cm'
  vec : cm'.vec = cm.vec
  length : cm'.centroids.length = cm.centroids.length
  fits : Fits cm X
  conserved : Conserved (tk p') (flat cm.centroids) (flat cm'.centroids ++ flat X) []
  frame : ∀ k, (k ∉ is ∨ ¬ Chosen split cm.centroids k) → cm'.centroids[k]? = cm.centroids[k]?
  suffix : ∀ (k : Nat) (c c' : Centroid F), cm.centroids[k]? = some c → cm'.centroids[k]? = some c' → c'.dps <:+ c.dps
  small : ∀ x ∈ X, ∃ c ∈ cm.centroids, x.dps.length ≤ c.dps.length
  exact : (∀ d ∈ flat cm.centroids, ∀ q, ¬ Dead (tk q) d) →
    (∀ (k : Nat) (c c' : Centroid F), cm.centroids[k]? = some c → cm'.centroids[k]? = some c' → k ∈ is →
      split c = true → c'.dps = c.dps.drop (c.dps.length / 2)) ∧
    X.map (fun x => x.dps) = is.filterMap (fun i => match cm.centroids[i]? with
      | some c => if split c = true ∧ 2 ≤ c.dps.length then some (c.dps.take (c.dps.length / 2)) else none
      | none => none)

theorem wp_splitLoop {tk : Nat → Int} (hm : MonoClock tk) (split : Centroid F → Bool) : ∀ (is : List Nat) (cm : Manager F)
    (acc : List (Centroid F)) (p : Nat), cm.WF → is.Nodup → (∀ i ∈ is, i < cm.centroids.length) →
    Go.wp (splitLoop tk split is cm acc) (fun r p' => ∃ X, r.1 = acc ++ X ∧ SplitLoopPost tk split is cm p r.2 X p') p
  | [], cm, acc, p, hw, _, _ => by
    unfold splitLoop
    rw [Go.wp_pure]
    refine ⟨[], by simp, Nat.le_refl _, hw, .refl _, rfl, rfl, by intro c hc; simp at hc, by simpa [flat_nil] using Conserved.refl _ _,
      fun _ _ => rfl, fun k c c' h1 h2 => by rw [h1] at h2; cases h2; exact List.suffix_refl _, by simp, fun _ => ⟨by simp, by simp⟩⟩
  | i :: is, cm, acc, p, hw, hnd, hr => by
    unfold splitLoop
    have hlt : i < cm.centroids.length := hr i (by simp)
    have hc : cm.centroids[i]? = some cm.centroids[i] := List.getElem?_eq_getElem hlt
    have hcm := List.getElem_mem hlt
    generalize cm.centroids[i] = c at hc hcm
    rw [List.nodup_cons] at hnd
    simp only [Go.wp_bind, Go.wp_idx]
    refine ⟨c, hc, ?_⟩
    -- the case where nothing happens at `i`
    have skip : ¬ (split c = true ∧ 2 ≤ c.dps.length) →
        Go.wp (splitLoop tk split is cm acc) (fun r p' => ∃ X, r.1 = acc ++ X ∧
          SplitLoopPost tk split (i :: is) cm p r.2 X p') p := by
      intro hno
      refine Go.wp_mono (wp_splitLoop hm split is cm acc p hw hnd.2 (fun j hj => hr j (by simp [hj]))) (fun r p' h => ?_)
      obtain ⟨X, h1, h2⟩ := h
      refine ⟨X, h1, h2.le, h2.wf, h2.same, h2.vec, h2.length, h2.fits, h2.conserved, fun k hk => ?_, h2.suffix, h2.small,
        fun hlive => ⟨fun k a a' ha ha' hk hs => ?_, ?_⟩⟩
      · refine h2.frame k (hk.imp (fun h hin => h (by simp [hin])) id)
      · by_cases hki : k = i
        · subst hki
          rw [hc] at ha; cases ha
          rw [h2.frame k (.inl hnd.1), hc] at ha'; cases ha'
          have : c.dps.length / 2 = 0 := by
            have : ¬ 2 ≤ c.dps.length := fun h => hno ⟨hs, h⟩
            omega
          rw [this]; rfl
        · exact (h2.exact hlive).1 k a a' ha ha' (by simpa [hki] using hk) hs
      · rw [List.filterMap_cons]
        simp only [hc, if_neg hno]
        exact (h2.exact hlive).2
    rw [Go.wp_ite]
    refine ⟨fun hs => skip (by simp at hs; simp [hs]), fun hs => ?_⟩
    have hs : split c = true := by simpa using hs
    by_cases h2 : 2 ≤ c.dps.length
    · rw [Go.wp_bind]
      refine Go.wp_mono (wp_splitCentroid hw hc (n := ((c.lenDP / 2 : Nat) : Int)) (by unfold Centroid.lenDP; omega) p)
        (fun r p1 hsp => ?_)
      obtain ⟨c', nc, hr1, hsp⟩ := hsp
      simp only [hr1]
      obtain ⟨s1, s2, s3⟩ := hsp.same
      obtain ⟨hle, l1, y1, y1'⟩ := hsp.conserved hm
      have hw1 := hsp.wf hw hc
      refine Go.wp_mono (wp_splitLoop hm split is r.2 (acc ++ [nc]) p1 hw1 hnd.2 (fun j hj => ?_)) (fun s p2 h => ?_)
      · rw [s3]; simpa using hr j (by simp [hj])
      · obtain ⟨X, x1, x2⟩ := h
        obtain ⟨pre, g1, g2, g3, g4, g5, g6, g7⟩ := hsp.shape
        have hset := flat_set hc c'
        obtain ⟨l2, y2, y2'⟩ := x2.conserved
        rw [s3] at y2
        have hget : r.2.centroids[i]? = some c' := by rw [s3, List.getElem?_set_self hlt]
        have hgetne : ∀ k, k ≠ i → r.2.centroids[k]? = cm.centroids[k]? := fun k hk => by
          rw [s3, List.getElem?_set_ne (Ne.symm hk)]
        have hchosen : ∀ k, k ≠ i → (Chosen split r.2.centroids k ↔ Chosen split cm.centroids k) := fun k hk => by
          unfold Chosen; rw [hgetne k hk]
        refine ⟨nc :: X, by rw [x1]; simp, Nat.le_trans hle x2.le, x2.wf, s1.trans x2.same, x2.vec.trans s2, ?_, ?_, ?_, ?_, ?_, ?_, ?_⟩
        · rw [x2.length, s3]; simp
        · intro x hx
          rcases List.mem_cons.1 hx with rfl | hx
          · exact ⟨hsp.search, hsp.dim.1.trans (hw.dim c hcm).1, hsp.dim.2⟩
          · have := x2.fits x hx
            rw [s1.knn, s1.kfn, s2] at this
            exact this
        · refine ⟨l1 ++ l2, ?_, fun d hd => (List.mem_append.1 hd).elim (fun h => (y1' d h).mono hm x2.le) (y2' d)⟩
          rw [flat_cons]; permc [y1, y2, hset]
        · intro k hk
          by_cases hki : k = i
          · subst hki
            rcases hk with hk | hk
            · exact absurd (by simp) hk
            · exact absurd ⟨c, hc, hs, h2⟩ hk
          · rw [x2.frame k (hk.imp (fun h hin => h (by simp [hin])) (fun h => by rw [hchosen k hki]; exact h)), hgetne k hki]
        · intro k a a' ha ha'
          by_cases hki : k = i
          · subst hki
            rw [hc] at ha; cases ha
            have := x2.suffix k c' a' hget ha'
            exact this.trans ⟨pre, g2.symm⟩
          · exact x2.suffix k a a' (by rw [hgetne k hki]; exact ha) ha'
        · intro x hx
          rcases List.mem_cons.1 hx with rfl | hx
          · refine ⟨c, hcm, ?_⟩
            rw [g3]
            have e1 := (liveReads_sublist tk (liveReads tk p pre) (p + pre.length)).length_le
            have e2 := (liveReads_sublist tk pre p).length_le
            have e3 := congrArg List.length g2
            rw [List.length_append] at e3
            omega
          · obtain ⟨z, hz, hzl⟩ := x2.small x hx
            rw [s3] at hz
            rcases List.mem_or_eq_of_mem_set hz with hz | rfl
            · exact ⟨z, hz, hzl⟩
            · refine ⟨c, hcm, ?_⟩
              have e3 := congrArg List.length g2
              rw [List.length_append] at e3
              omega
        · intro hlive
          have hlp : ∀ d ∈ pre, ∀ q, ¬ Dead (tk q) d := fun d hd => hlive d (flat_mem hc (by rw [g2]; simp [hd]))
          have hid : liveReads tk p pre = pre := liveReads_id pre p hlp
          rw [hid] at g3 g5 g6
          rw [liveReads_id pre _ hlp] at g3
          have hplen : pre.length = c.dps.length / 2 := by
            have e3 := congrArg List.length g2
            rw [List.length_append] at e3
            unfold Centroid.lenDP at g5 g6
            rcases Nat.lt_or_ge pre.length (c.dps.length / 2) with h | h
            · have := g6 (by omega)
              rw [this] at e3; simp at e3; omega
            · omega
          have hpre : pre = c.dps.take (c.dps.length / 2) := by
            rw [← hplen]; conv => rhs; rw [g2]
            simp
          have hpost : c'.dps = c.dps.drop (c.dps.length / 2) := by
            rw [← hplen]; conv => rhs; rw [g2]
            simp
          have hlive' : ∀ d ∈ flat r.2.centroids, ∀ q, ¬ Dead (tk q) d := by
            intro d hd
            rw [s3] at hd
            obtain ⟨z, hz, hdz⟩ := List.mem_flatMap.1 hd
            rcases List.mem_or_eq_of_mem_set hz with hz | rfl
            · exact hlive d (List.mem_flatMap.2 ⟨z, hz, hdz⟩)
            · exact hlive d (flat_mem hc (by rw [g2]; simp [hdz]))
          refine ⟨fun k a a' ha ha' hk hsk => ?_, ?_⟩
          · by_cases hki : k = i
            · subst hki
              rw [hc] at ha; cases ha
              rw [x2.frame k (.inl hnd.1), hget] at ha'; cases ha'
              exact hpost
            · exact (x2.exact hlive').1 k a a' (by rw [hgetne k hki]; exact ha) ha' (by simpa [hki] using hk) hsk
          · rw [List.filterMap_cons]
            simp only [hc]
            rw [if_pos ⟨hs, h2⟩]
            simp only [List.map_cons, g3, ← hpre]
            congr 1
            rw [(x2.exact hlive').2]
            apply List.filterMap_congr
            intro j hj
            have hji : j ≠ i := fun h => hnd.1 (h ▸ hj)
            rw [hgetne j hji]
    · have hz : ((c.lenDP / 2 : Nat) : Int) ≤ 0 := by unfold Centroid.lenDP; omega
      rw [splitCentroid_none hz]
      simp only [Go.wp_bind, Go.wp_pure]
      exact skip (fun h => h2 h.2)

theorem wp_splitCentroids {tk : Nat → Int} (hm : MonoClock tk) {cm : Manager F} (hw : cm.WF) (split : Centroid F → Bool) (p : Nat) :
    Go.wp (cm.splitCentroids tk split) (fun cm' p' => ∃ cm1 X, Eff tk p p' cm cm' [] [] ∧ cm'.centroids = cm1.centroids ++ X ∧
      SplitLoopPost tk split (List.range cm.centroids.length) cm p cm1 X p') p := by
  unfold splitCentroids
  simp only [Go.wp_bind, Go.wp_pure]
  refine Go.wp_mono (wp_splitLoop hm split _ cm [] p hw List.nodup_range (by simp)) (fun r p' h => ?_)
  obtain ⟨X, h1, h2⟩ := h
  rw [List.nil_append] at h1
  rw [h1]
  have hf : Fits r.2 X := h2.fits.congr h2.same (by rw [h2.vec])
  refine ⟨r.2, X, ⟨h2.le, h2.wf.append (fun c hc => (hf c hc).1) (fun c hc => (hf c hc).2),
    h2.same.trans ⟨rfl, rfl, rfl, rfl⟩, ?_, fun _ => by rw [h2.vec]⟩, rfl, h2⟩
  simp only [flat_append]
  simpa using h2.conserved

end Manager
end Trypo
