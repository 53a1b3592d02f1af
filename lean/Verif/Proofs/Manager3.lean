import Verif.Proofs.Manager2

/-!
# Lemmas about pkg/kmeans/centroidmanager: MemTrim, MoveVector, distribution
-/

set_option linter.unusedSectionVars false
set_option linter.unusedVariables false

namespace Trypo
open GoFloat Spec

variable {F : Type} [GoFloat F]

namespace Manager
open Centroid (flat flat_set CallOK DimOK Evolves RmSteps)

theorem flat_cons (c : Centroid F) (cs : List (Centroid F)) : flat (c :: cs) = c.dps ++ flat cs := by simp [flat]

/-! ### MemTrim -/

/-- A centroid list fit for the manager `cm`. -/
def Fits (cm : Manager F) (cs : List (Centroid F)) : Prop :=
  ∀ c ∈ cs, (c.knn = cm.knn ∧ c.kfn = cm.kfn) ∧ c.vec.length = cm.vec.length ∧ c.DimOK

theorem WF.fits {cm : Manager F} (h : cm.WF) : Fits cm cm.centroids := fun c hc => ⟨h.search c hc, h.dim c hc⟩

theorem Fits.congr {cm cm' : Manager F} {cs : List (Centroid F)} (h : Fits cm cs) (hs : Same cm cm')
    (hv : cm'.vec.length = cm.vec.length) : Fits cm' cs := by
  intro c hc; rw [hs.knn, hs.kfn, hv]; exact h c hc

theorem Fits.wf {cm : Manager F} {cs : List (Centroid F)} (h : Fits cm cs) (hw : cm.WF) :
    ({ cm with centroids := cs } : Manager F).WF :=
  ⟨hw.cap, hw.good, fun c hc => (h c hc).1, fun c hc => (h c hc).2⟩

theorem wp_memTrimLoop {tk : Nat → Int} (hm : MonoClock tk) : ∀ (m i : Nat) (cm : Manager F) (acc : List (Centroid F)) (p : Nat),
    cm.WF → i + m = cm.centroids.length →
    Go.wp (memTrimLoop tk (List.range' i m) cm acc) (fun r p' => ∃ X, r.1 = acc ++ X ∧ p ≤ p' ∧ Same cm r.2 ∧
      r.2.vec.length = cm.vec.length ∧ Fits cm X ∧ Conserved (tk p') (flat (cm.centroids.drop i)) (flat X) [] ∧
      AllLive (tk p) (flat X) ∧
      ∀ x ∈ X, x.dps ≠ [] ∧ ∃ c ∈ cm.centroids, x.dps.Sublist c.dps) p
  | 0, i, cm, acc, p, hw, hi => by
    simp only [List.range'_zero]
    unfold memTrimLoop
    rw [Go.wp_pure]
    refine ⟨[], by simp, Nat.le_refl _, .refl _, rfl, by intro c hc; simp at hc, ?_, by intro d hd; simp [flat] at hd, by simp⟩
    rw [List.drop_of_length_le (by omega)]
    exact Conserved.refl _ _
  | m + 1, i, cm, acc, p, hw, hi => by
    rw [List.range'_succ]
    unfold memTrimLoop
    simp only [Go.wp_bind]
    have hlt : i < cm.centroids.length := by omega
    have hc : cm.centroids[i]? = some cm.centroids[i] := List.getElem?_eq_getElem hlt
    have hcm := List.getElem_mem hlt
    have hdrop : cm.centroids.drop i = cm.centroids[i] :: cm.centroids.drop (i + 1) := List.drop_eq_getElem_cons hlt
    generalize cm.centroids[i] = c at hc hcm hdrop
    refine Go.wp_mono (wp_onCentroid (tk := tk) hw hc _ (fun c' o out p' => out = [] ∧ o = c' ∧ c'.dps.Sublist c.dps ∧
      AllLive (tk p) c'.dps) ?_)
      (fun r p1 hr => ?_)
    · simp only [Go.wp_bind, Go.wp_pure]
      refine Go.wp_mono (Go.wp_and (Centroid.wp_memTrim tk c p) (Centroid.callOK_memTrim hm c (hw.dim c hcm).2 p))
        (fun c' p' h => ?_)
      obtain ⟨⟨c0, h1, h2, h3⟩, h4⟩ := h
      refine ⟨[], h4, rfl, by trivial, ?_, ?_⟩
      · rw [h2]; exact liveReads_sublist tk c.dps p
      · rw [h2]; exact liveReads_live hm c.dps p p (Nat.le_refl _)
    · obtain ⟨out, c', e1, e2, e3, rfl, e4, e5, e6⟩ := hr
      rw [e4]
      have hdr : r.2.centroids.drop (i + 1) = cm.centroids.drop (i + 1) := by
        rw [e2, upd_centroids, List.drop_set_of_lt (by omega)]
      have hfit : (c'.knn = cm.knn ∧ c'.kfn = cm.kfn) ∧ c'.vec.length = cm.vec.length ∧ c'.DimOK := by
        refine ⟨?_, ?_, e3.dim.2⟩
        · rw [e3.search.1, e3.search.2]; exact hw.search c hcm
        · rw [e3.dim.1]; exact (hw.dim c hcm).1
      have hvec : r.2.vec.length = cm.vec.length := by
        rw [e2]; exact updateVec_length _ (hw.dim c hcm).1 hfit.2.1
      have hvecd : (r.2.dropVec c'.vec).vec.length = cm.vec.length := by
        rw [dropVec_length _ (by rw [hvec]; exact hfit.2.1), hvec]
      have hmem : ∀ x ∈ r.2.centroids, x ∈ cm.centroids ∨ x = c' := by
        intro x hx; rw [e2] at hx; exact List.mem_or_eq_of_mem_set hx
      -- continuing with any manager that has these centroids
      have cont : ∀ cm1 : Manager F, cm1.WF → Same cm cm1 → cm1.vec.length = cm.vec.length →
          cm1.centroids = r.2.centroids →
          Go.wp (memTrimLoop tk (List.range' (i + 1) m) cm1 (if c'.lenDP ≠ 0 then acc ++ [c'] else acc))
            (fun r p' => ∃ X, r.1 = acc ++ X ∧ p ≤ p' ∧ Same cm r.2 ∧ r.2.vec.length = cm.vec.length ∧ Fits cm X ∧
              Conserved (tk p') (flat (cm.centroids.drop i)) (flat X) [] ∧ AllLive (tk p) (flat X) ∧
              ∀ x ∈ X, x.dps ≠ [] ∧ ∃ c ∈ cm.centroids, x.dps.Sublist c.dps) p1 := by
        intro cm1 hw1 hs1 hv1 hc1
        refine Go.wp_mono (wp_memTrimLoop hm m (i + 1) cm1 _ p1 hw1 (by rw [hc1, e2]; simp; omega)) (fun s p2 hs => ?_)
        obtain ⟨X, x1, x2, x3, x4, x5, ⟨l2, x6, x6'⟩, xl, x7⟩ := hs
        rw [hc1, hdr] at x6
        have hfx : Fits cm X := x5.congr ⟨hs1.knn.symm, hs1.kfn.symm, hs1.cap.symm, hs1.thr.symm⟩ hv1.symm
        obtain ⟨l1, y1, y1'⟩ := e3.conserved.mono hm x2
        have hX : ∀ x ∈ X, x.dps ≠ [] ∧ ∃ c ∈ cm.centroids, x.dps.Sublist c.dps := by
          intro x hx
          obtain ⟨z1, z, z2, z3⟩ := x7 x hx
          refine ⟨z1, ?_⟩
          rw [hc1] at z2
          rcases hmem z z2 with hz | rfl
          · exact ⟨z, hz, z3⟩
          · exact ⟨c, hcm, z3.trans e5⟩
        have hlost : ∀ d ∈ l1 ++ l2, Dead (tk p2) d := fun d hd => (List.mem_append.1 hd).elim (y1' d) (x6' d)
        have hle : p ≤ p2 := Nat.le_trans e3.le x2
        by_cases hz : c'.lenDP = 0
        · have hz' : c'.dps = [] := List.length_eq_zero_iff.1 hz
          rw [if_neg (by simpa using hz)] at x1
          refine ⟨X, x1, hle, hs1.trans x3, x4.trans hv1, hfx, ⟨l1 ++ l2, ?_, hlost⟩, xl.mono hm e3.le, hX⟩
          rw [hdrop, flat_cons]
          rw [hz'] at y1
          permc [x6, y1]
        · have hz' : c'.dps ≠ [] := fun h => hz (by simp [Centroid.lenDP, h])
          rw [if_pos (by simpa using hz)] at x1
          refine ⟨c' :: X, by rw [x1]; simp, hle, hs1.trans x3, x4.trans hv1, ?_, ⟨l1 ++ l2, ?_, hlost⟩, ?_, ?_⟩
          · intro x hx
            rcases List.mem_cons.1 hx with rfl | hx
            · exact hfit
            · exact hfx x hx
          · rw [hdrop, flat_cons, flat_cons]
            permc [x6, y1]
          · rw [flat_cons]; exact e6.append (xl.mono hm e3.le)
          · intro x hx
            rcases List.mem_cons.1 hx with rfl | hx
            · exact ⟨hz', c, hcm, e5⟩
            · exact hX x hx
      rw [Go.wp_ite]
      refine ⟨fun _ => cont _ ?_ ?_ hvecd rfl, fun _ => cont _ e1.wf e1.same hvec rfl⟩
      · refine ⟨e1.wf.cap, e1.wf.good, e1.wf.search, fun x hx => ?_⟩
        rw [hvecd, ← hvec]; exact e1.wf.dim x hx
      · exact e1.same.trans ⟨rfl, rfl, rfl, rfl⟩

theorem wp_memTrim {tk : Nat → Int} (hm : MonoClock tk) {cm : Manager F} (hw : cm.WF) (p : Nat) :
    Go.wp (cm.memTrim tk) (fun cm' p' => Eff tk p p' cm cm' [] [] ∧ AllLive (tk p) (flat cm'.centroids) ∧
      ∀ x ∈ cm'.centroids, x.dps ≠ [] ∧ ∃ c ∈ cm.centroids, x.dps.Sublist c.dps) p := by
  unfold memTrim
  simp only [Go.wp_bind, Go.wp_pure, List.range_eq_range']
  refine Go.wp_mono (wp_memTrimLoop hm _ 0 cm [] p hw (by simp)) (fun r p' hr => ?_)
  obtain ⟨X, x1, x2, x3, x4, x5, x6, xl, x7⟩ := hr
  rw [List.nil_append] at x1
  rw [x1]
  have hfx : Fits r.2 X := x5.congr x3 x4
  refine ⟨⟨x2, ⟨?_, ?_, fun c hc => (hfx c hc).1, fun c hc => (hfx c hc).2⟩, x3.trans ⟨rfl, rfl, rfl, rfl⟩, by simpa using x6, fun _ => x4⟩, xl, x7⟩
  · show 0 ≤ r.2.initCap; rw [x3.cap]; exact hw.cap
  · show SearchOK r.2.knn ∧ SearchOK r.2.kfn; rw [x3.knn, x3.kfn]; exact hw.good

/-! ### MoveVector -/

theorem wp_moveAll {tk : Nat → Int} (hm : MonoClock tk) (cm : Manager F) : ∀ (cs : List (Centroid F)) (p : Nat), Fits cm cs →
    Go.wp (moveAll tk cs) (fun cs' p' => p ≤ p' ∧ Fits cm cs' ∧ Conserved (tk p') (flat cs) (flat cs') [] ∧
      List.Forall₂ (fun c c' => c'.dps.Sublist c.dps) cs cs') p
  | [], p, _ => by
    unfold moveAll
    rw [Go.wp_pure]
    exact ⟨Nat.le_refl _, by intro c hc; simp at hc, Conserved.refl _ _, .nil⟩
  | c :: cs, p, hf => by
    unfold moveAll
    simp only [Go.wp_bind, Go.wp_pure]
    have hc := hf c (by simp)
    refine Go.wp_mono (Go.wp_and (Centroid.callOK_moveVector hm c hc.2.2 p) (Centroid.wp_moveVector hm c hc.2.2 p))
      (fun r p1 hr => ?_)
    obtain ⟨hok, c1, hpg, hr⟩ := hr
    have hsub : r.2.dps.Sublist c.dps := by
      obtain ⟨rm, h1, _⟩ := hpg.steps
      have h2 := h1.sublist
      split at hr <;> (rw [hr]; exact h2)
    refine Go.wp_mono (wp_moveAll hm cm cs p1 (fun x hx => hf x (by simp [hx]))) (fun cs' p2 hs => ?_)
    obtain ⟨h1, h2, ⟨l2, h3, h3'⟩, h4⟩ := hs
    obtain ⟨l1, y1, y1'⟩ := hok.conserved.mono hm h1
    refine ⟨Nat.le_trans hok.le h1, ?_, ⟨l1 ++ l2, ?_, fun d hd => (List.mem_append.1 hd).elim (y1' d) (h3' d)⟩, .cons hsub h4⟩
    · intro x hx
      rcases List.mem_cons.1 hx with rfl | hx
      · refine ⟨?_, ?_, hok.dim.2⟩
        · rw [hok.search.1, hok.search.2]; exact hc.1
        · rw [hok.dim.1]; exact hc.2.1
      · exact h2 x hx
    · rw [flat_cons, flat_cons]; permc [y1, h3]

theorem wp_moveAll_mean {tk : Nat → Int} (hm : MonoClock tk) : ∀ (cs : List (Centroid ℝ)) (p : Nat), (∀ c ∈ cs, c.DimOK) →
    Go.wp (moveAll tk cs) (fun cs' _ => ∀ c' ∈ cs', c'.dps ≠ [] → c'.MeanInv) p
  | [], p, _ => by
    unfold moveAll
    rw [Go.wp_pure]
    intro c hc; simp at hc
  | c :: cs, p, hf => by
    unfold moveAll
    simp only [Go.wp_bind, Go.wp_pure]
    refine Go.wp_mono (Centroid.meanInv_moveVector hm c (hf c (by simp)) p) (fun r p1 hr => ?_)
    refine Go.wp_mono (wp_moveAll_mean hm cs p1 (fun x hx => hf x (by simp [hx]))) (fun cs' p2 hs => ?_)
    intro x hx hne
    rcases List.mem_cons.1 hx with rfl | hx
    · exact hr.1 (.inl (hr.2.2 hne))
    · exact hs x hx hne

/-- Vectors of one length have a mean when there are any. -/
theorem vecMean_flag_of_len {L : Nat} {vs : List (List F)} (h : ∀ v ∈ vs, v.length = L) :
    ((vecMean vs).2 = true ↔ vs ≠ []) ∧ ((vecMean vs).2 = true → (vecMean vs).1.length = L) := by
  rw [(C01_vecMean_flag vs).1]
  refine ⟨⟨?_, ?_⟩, ?_⟩
  · rintro ⟨v, hv, _⟩ h; rw [h] at hv; simp at hv
  · intro hne
    obtain ⟨v, l, hl⟩ := List.exists_cons_of_ne_nil hne
    exact ⟨v, by rw [hl]; rfl, fun w hw => by rw [h w hw, h v (by rw [hl]; simp)]⟩
  · rintro ⟨v, hv, _⟩
    rw [(C01_vecMean_flag vs).2 v hv]
    exact h v (List.mem_of_mem_head? hv)

theorem wp_moveVector {tk : Nat → Int} (hm : MonoClock tk) {cm : Manager F} (hw : cm.WF) (p : Nat) :
    Go.wp (cm.moveVector tk) (fun r p' => Eff tk p p' cm r.2 [] [] ∧ (r.1 = true ↔ cm.centroids ≠ []) ∧
      List.Forall₂ (fun c c' => c'.dps.Sublist c.dps) cm.centroids r.2.centroids ∧
      (r.1 = true → (vecMean r.2.centroidVecs).2 = true ∧ r.2.vec = (vecMean r.2.centroidVecs).1)) p := by
  unfold moveVector
  simp only [Go.wp_bind]
  refine Go.wp_mono (wp_moveAll hm cm cm.centroids p hw.fits) (fun cs p' hr => ?_)
  obtain ⟨h1, h2, h3, h4⟩ := hr
  have hlen : ∀ v ∈ cs.map (fun c => c.vec), v.length = cm.vec.length := by
    intro v hv; obtain ⟨c, hc, rfl⟩ := List.mem_map.1 hv; exact (h2 c hc).2.1
  obtain ⟨m1, m2⟩ := vecMean_flag_of_len hlen
  have hemp : cs.map (fun c => c.vec) ≠ [] ↔ cm.centroids ≠ [] := by
    have := h4.length_eq
    rw [not_iff_not]
    constructor
    · intro h; rw [List.map_eq_nil_iff] at h; rw [h] at this; exact List.length_eq_zero_iff.1 this
    · intro h; rw [h] at this; rw [List.map_eq_nil_iff]; exact List.length_eq_zero_iff.1 this.symm
  rw [Go.wp_ite]
  refine ⟨fun ht => ?_, fun ht => ?_⟩
  · rw [Go.wp_pure]
    refine ⟨⟨h1, ⟨hw.cap, hw.good, fun c hc => (h2 c hc).1, fun c hc => ?_⟩, ⟨rfl, rfl, rfl, rfl⟩, by simpa using h3, fun _ => m2 ht⟩,
      by simpa using hemp.1 (m1.1 ht), h4, fun _ => ⟨ht, rfl⟩⟩
    show c.vec.length = (vecMean _).1.length ∧ _
    rw [m2 ht]; exact (h2 c hc).2
  · rw [Go.wp_pure]
    refine ⟨⟨h1, h2.wf hw, ⟨rfl, rfl, rfl, rfl⟩, by simpa using h3, fun _ => rfl⟩, ?_, h4, by simp⟩
    have := (not_congr (m1.trans hemp)).1 ht
    simpa using this

/-! ### Distribution -/

theorem wp_distributeLoop {tk : Nat → Int} (hm : MonoClock tk) (cm : Manager F) (hg : SearchOK cm.knn ∧ SearchOK cm.kfn)
    (receivers : List Nat) : ∀ (es : List (Nat × Nat)) (h : List (Centroid F)) (p : Nat), (∀ r ∈ receivers, r < h.length) →
    (∀ e ∈ es, ∃ c, h[e.1]? = some c ∧ (c.knn = cm.knn ∧ c.kfn = cm.kfn) ∧ c.DimOK) →
    Go.wp (distributeLoop tk receivers es h) (fun h' p' => p ≤ p' ∧ h'.length = h.length ∧
      (∀ (k : Nat) (c c' : Centroid F), h[k]? = some c → h'[k]? = some c' → Evolves c c') ∧
      Conserved (tk p') (flat h) (flat h') []) p
  | [], h, p, _, _ => by
    unfold distributeLoop
    rw [Go.wp_pure]
    exact ⟨Nat.le_refl _, rfl, fun k c c' h1 h2 => by rw [h1] at h2; cases h2; exact .refl _, Conserved.refl _ _⟩
  | (i, portion) :: es, h, p, hr, he => by
    unfold distributeLoop
    simp only [Go.wp_bind]
    obtain ⟨c, hc, hs, hd⟩ := he (i, portion) (by simp)
    refine Go.wp_mono (Centroid.wp_distribute hm h i c hc (by rw [hs.1]; exact hg.1) (by rw [hs.2]; exact hg.2) hd
      (n := portion) (by omega) receivers hr p) (fun h1 p1 q => ?_)
    obtain ⟨q1, q2, ⟨l1, q3, q3'⟩, q4⟩ := q
    have hpt : ∀ (k : Nat) (c : Centroid F), h[k]? = some c → ∃ c', h1[k]? = some c' ∧ Evolves c c' := by
      intro k c hk
      have hlt : k < h1.length := by rw [q2.1]; exact (List.getElem?_eq_some_iff.1 hk).1
      exact ⟨h1[k], List.getElem?_eq_getElem hlt, (q2.2 k c _ hk (List.getElem?_eq_getElem hlt)).1⟩
    refine Go.wp_mono (wp_distributeLoop hm cm hg receivers es h1 p1 (by rw [q2.1]; exact hr) (fun e hin => ?_))
      (fun h2 p2 t => ?_)
    · obtain ⟨c, hc, hs, hd⟩ := he e (by simp [hin])
      obtain ⟨c', hc', hev⟩ := hpt _ c hc
      exact ⟨c', hc', by rw [hev.search.1, hev.search.2]; exact hs, (hev.dim hd).2⟩
    · obtain ⟨t1, t2, t3, l2, t4, t4'⟩ := t
      refine ⟨Nat.le_trans q1 t1, t2.trans q2.1, fun k a a' ha ha' => ?_, l1 ++ l2, by permc [q3, t4], fun d hd => ?_⟩
      · obtain ⟨b, hb, hev⟩ := hpt k a ha
        exact hev.trans (t3 k b a' hb ha')
      · exact (List.mem_append.1 hd).elim (fun h => (q3' d h).mono hm t1) (t4' d)

theorem wp_distribute {tk : Nat → Int} (hm : MonoClock tk) {ord : List (Nat × Nat) → List (Nat × Nat)} (ho : OrdOK ord)
    {cm : Manager F} (hw : cm.WF) (n : Int) (ext : List (Centroid F)) (receivers : List Nat)
    (hr : ∀ r ∈ receivers, r < cm.centroids.length + ext.length) (p : Nat) :
    Go.wp (cm.distribute tk ord n ext receivers) (fun r p' => p ≤ p' ∧ r.1.WF ∧ (Same cm r.1 ∧ r.1.vec.length = cm.vec.length) ∧
      r.2.length = ext.length ∧ r.1.centroids.length = cm.centroids.length ∧
      (∀ (k : Nat) (c c' : Centroid F), ext[k]? = some c → r.2[k]? = some c' → Evolves c c') ∧
      Conserved (tk p') (flat cm.centroids ++ flat ext) (flat r.1.centroids ++ flat r.2) [] ∧
      (receivers ≠ [] → cm.centroids ≠ [] → (vecMean r.1.centroidVecs).2 = true ∧ r.1.vec = (vecMean r.1.centroidVecs).1) ∧
      (receivers = [] → r = (cm, ext))) p := by
  unfold distribute
  rw [Go.wp_ite]
  refine ⟨fun h0 => ?_, fun h0 => ?_⟩
  · rw [Go.wp_pure]
    have h0' := List.length_eq_zero_iff.1 h0
    refine ⟨Nat.le_refl _, hw, ⟨.refl _, rfl⟩, rfl, rfl, fun k c c' h1 h2 => ?_, Conserved.refl _ _, fun h => absurd h0' h, fun _ => rfl⟩
    rw [h1] at h2; cases h2; exact .refl _
  · simp only [Go.wp_bind, Go.wp_pure]
    refine Go.wp_mono (wp_distributeLoop hm cm hw.good receivers _ (cm.centroids ++ ext) p (by simpa using hr) (fun e he => ?_))
      (fun h p1 q => ?_)
    · have hlt := ord_lt ho e he
      have hmem := List.getElem_mem hlt
      refine ⟨cm.centroids[e.1], ?_, hw.search _ hmem, (hw.dim _ hmem).2⟩
      rw [List.getElem?_append_left hlt]; exact List.getElem?_eq_getElem hlt
    · obtain ⟨q1, q2, q3, q4⟩ := q
      rw [List.length_append] at q2
      have hfit : Fits cm (h.take cm.centroids.length) := by
        intro x hx
        obtain ⟨k, hk⟩ := List.mem_iff_getElem?.1 hx
        rw [List.getElem?_take] at hk
        split at hk
        · rename_i hlt
          have hg : (cm.centroids ++ ext)[k]? = some cm.centroids[k] := by
            rw [List.getElem?_append_left hlt]; exact List.getElem?_eq_getElem hlt
          have hev := q3 k _ x hg hk
          have hmem := List.getElem_mem hlt
          have hd := hw.dim _ hmem
          have hd' := hev.dim hd.2
          exact ⟨by rw [hev.search.1, hev.search.2]; exact hw.search _ hmem, hd'.1.trans hd.1, hd'.2⟩
        · simp at hk
      refine Go.wp_mono (wp_moveVector hm (hfit.wf hw) p1) (fun r p2 t => ?_)
      obtain ⟨t1, t2, t3, t4⟩ := t
      have hlen : (h.take cm.centroids.length).length = cm.centroids.length := by rw [List.length_take]; omega
      have hsplit : flat h = flat (h.take cm.centroids.length) ++ flat (h.drop cm.centroids.length) := by
        rw [← flat_append, List.take_append_drop]
      refine ⟨Nat.le_trans q1 t1.le, t1.wf, ⟨⟨t1.same.knn, t1.same.kfn, t1.same.cap, t1.same.thr⟩, t1.len (by simp)⟩, by simp; omega,
        t3.length_eq.symm.trans hlen, fun k c c' h1 h2 => ?_, ?_, fun _ hne => t4 (t2.2 ?_), fun h => absurd (by simp [h]) h0⟩
      · rw [List.getElem?_drop] at h2
        exact q3 (cm.centroids.length + k) c c' (by rw [List.getElem?_append_right (by omega)]; simpa using h1) h2
      · obtain ⟨l1, y1, y1'⟩ := q4.mono hm t1.le
        obtain ⟨l2, y2, y2'⟩ := t1.conserved
        rw [hsplit, flat_append] at y1
        refine ⟨l1 ++ l2, ?_, fun d hd => (List.mem_append.1 hd).elim (y1' d) (y2' d)⟩
        simp only at y2
        permc [y1, y2]
      · intro h; simp only at h
        rw [h] at hlen
        exact hne (List.length_eq_zero_iff.1 hlen.symm)

theorem wp_distributeInternal {tk : Nat → Int} (hm : MonoClock tk) {ord : List (Nat × Nat) → List (Nat × Nat)} (ho : OrdOK ord)
    {cm : Manager F} (hw : cm.WF) (n : Int) (p : Nat) :
    Go.wp (cm.distributeInternal tk ord n) (fun cm' p' => Eff tk p p' cm cm' [] [] ∧
      cm'.centroids.length = cm.centroids.length ∧
      (cm.centroids ≠ [] → (vecMean cm'.centroidVecs).2 = true ∧ cm'.vec = (vecMean cm'.centroidVecs).1) ∧
      (cm.centroids = [] → cm' = cm)) p := by
  unfold distributeInternal
  simp only [Go.wp_bind, Go.wp_pure]
  refine Go.wp_mono (wp_distribute hm ho hw n [] (List.range cm.centroids.length) (by simp) p) (fun r p' hr => ?_)
  obtain ⟨h1, h2, h3, h4, h5, h6, h7, h8, h9⟩ := hr
  have hr2 : r.2 = [] := List.length_eq_zero_iff.1 h4
  rw [hr2] at h7
  refine ⟨⟨h1, h2, h3.1, by simpa [flat_nil] using h7, fun _ => h3.2⟩, h5, fun hne => h8 (fun h => hne ?_) hne, fun he => ?_⟩
  · have := congrArg List.length h; simp at this; exact this
  · have := h9 (by simp [he]); rw [this]

end Manager
end Trypo
