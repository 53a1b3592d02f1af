import Verif.Proofs.CentroidMean
import Verif.Spec.CentroidHistory
import Verif.Props.MathUtils

/-!
# Histories on centroids: the invariant
-/

set_option linter.unusedSectionVars false
set_option linter.unusedVariables false

namespace Trypo
open GoFloat Spec

variable {F : Type} [GoFloat F]

namespace Centroid

/-- What one call does to one centroid. -/
structure CallOK (tk : Nat → Int) (p p' : Nat) (c c' : Centroid F) (acc out : List (DataPoint F)) : Prop where
  le : p ≤ p'
  search : c'.knn = c.knn ∧ c'.kfn = c.kfn
  dim : c'.vec.length = c.vec.length ∧ c'.DimOK
  conserved : Conserved (tk p') (acc ++ c.dps) c'.dps out

theorem survivors_conserved {t t' : Int} {a b : List (DataPoint F)} (h : ∃ lost, (b ++ lost).Perm a ∧ ∀ d ∈ lost, Dead t d) :
    Conserved t a b [] := by
  obtain ⟨l, h1, h2⟩ := h
  exact ⟨l, by permc [h1], h2⟩

theorem callOK_drainUnordered {tk : Nat → Int} (hm : MonoClock tk) (c : Centroid F) (hd : c.DimOK) {n : Int} (hn : 0 ≤ n) (p : Nat) :
    Go.wp (c.drainUnordered tk n) (fun r p' => CallOK tk p p' c r.2 [] r.1 ∧ Evolves c r.2) p := by
  refine Go.wp_mono (wp_drainUnordered tk c hn p) (fun r p' hr => ?_)
  obtain ⟨pre, h1, h2, h3, h4, h5, h6, h7⟩ := hr
  obtain ⟨lost, e1, e2⟩ := liveReads_lost hm pre p p' (by omega)
  refine ⟨⟨by omega, h1.search, h1.dim hd, lost, ?_, e2⟩, h1.evolves⟩
  rw [h2, h3]
  permc [e1]

theorem callOK_drainOrdered {tk : Nat → Int} (hm : MonoClock tk) (c : Centroid F) (hs : SearchOK c.kfn) (hd : c.DimOK)
    {n : Int} (hn : 0 ≤ n) (p : Nat) :
    Go.wp (c.drainOrdered tk n) (fun r p' => CallOK tk p p' c r.2 [] r.1 ∧ Evolves c r.2) p := by
  refine Go.wp_mono (wp_drainOrdered hm c hs hn p) (fun r p' hr => ?_)
  obtain ⟨h1, ⟨removed, h2⟩, h3, h4, h5, h6⟩ := hr.facts
  exact ⟨⟨h1, h2.search, h2.dim hd, h3⟩, h2.evolves⟩

theorem callOK_purged {tk : Nat → Int} {p p' : Nat} {c c' : Centroid F} (hd : c.DimOK) (h : Purged tk 0 p p' c c') :
    CallOK tk p p' c c' [] [] := by
  obtain ⟨removed, h1, h2⟩ := h.steps
  exact ⟨h.le, h1.search, h1.dim hd, h.conserved⟩

theorem callOK_knnLookup {tk : Nat → Int} (hm : MonoClock tk) (c : Centroid F) (hs : SearchOK c.knn) (hd : c.DimOK)
    (v : List F) {k : Int} (hk : 0 ≤ k) (drain : Bool) (p : Nat) :
    Go.wp (c.knnLookup tk v k drain) (fun r p' => CallOK tk p p' c r.2 [] (if drain then r.1 else []) ∧ Evolves c r.2) p := by
  refine Go.wp_mono (wp_knnLookup hm c hs v hk drain p) (fun r p' hr => ?_)
  cases drain with
  | true =>
    obtain ⟨h1, ⟨removed, h2⟩, h3, h4, h5, h6⟩ := DrainEffect.facts hr
    exact ⟨⟨h1, h2.search, h2.dim hd, h3⟩, h2.evolves⟩
  | false =>
    obtain ⟨h1, h2, _⟩ := LookupEffect.facts hr
    exact ⟨callOK_purged hd h2, h2.evolves⟩

theorem callOK_memTrim {tk : Nat → Int} (hm : MonoClock tk) (c : Centroid F) (hd : c.DimOK) (p : Nat) :
    Go.wp (c.memTrim tk) (fun c' p' => CallOK tk p p' c c' [] []) p := by
  refine Go.wp_mono (wp_memTrim tk c p) (fun c' p' hr => ?_)
  obtain ⟨c0, h1, h2, h3⟩ := hr
  obtain ⟨lost, e1, e2⟩ := liveReads_lost hm c.dps p p' (by omega)
  have hv := (h1.dim hd).1
  subst h2
  refine ⟨by omega, h1.search, ⟨hv, fun d hd' => ?_⟩, lost, by permc [e1], e2⟩
  rw [hd d ((liveReads_sublist tk c.dps p).subset hd')]
  exact hv.symm

theorem callOK_moveVector {tk : Nat → Int} (hm : MonoClock tk) (c : Centroid F) (hd : c.DimOK) (p : Nat) :
    Go.wp (c.moveVector tk) (fun r p' => CallOK tk p p' c r.2 [] []) p := by
  refine Go.wp_mono (wp_moveVector hm c hd p) (fun r p' hr => ?_)
  obtain ⟨c1, h1, h2⟩ := hr
  have hok := callOK_purged hd h1
  split at h2
  · rename_i ht
    subst h2
    have hl : (vecMean (c1.dps.map (fun d => d.vec))).1.length = c1.vec.length := by
      obtain ⟨v, hv, _⟩ := (C01_vecMean_flag _).1.1 ht
      rw [(C01_vecMean_flag _).2 v hv]
      have : v ∈ c1.dps.map (fun d => d.vec) := List.mem_of_mem_head? hv
      obtain ⟨d, hd1, rfl⟩ := List.mem_map.1 this
      exact hok.dim.2 d hd1
    refine ⟨hok.le, hok.search, ⟨hl.trans hok.dim.1, fun d hd' => ?_⟩, hok.conserved⟩
    rw [hok.dim.2 d hd', hl]
  · subst h2
    exact hok

theorem meanInv_moveVector {tk : Nat → Int} (hm : MonoClock tk) (c : Centroid ℝ) (hd : c.DimOK) (p : Nat) :
    Go.wp (c.moveVector tk) (fun r p' => (r.1 = true ∨ c.MeanInv → r.2.MeanInv) ∧ (r.1 = true ↔ r.2.dps ≠ [])) p := by
  refine Go.wp_mono (wp_moveVector hm c hd p) (fun r p' hr => ?_)
  obtain ⟨c1, h1, h2⟩ := hr
  have hdim := (callOK_purged hd h1).dim.2
  have hflag : (vecMean (c1.dps.map (fun d => d.vec))).2 = true ↔ c1.dps ≠ [] := by
    rw [(C01_vecMean_flag _).1]
    constructor
    · rintro ⟨v, hv, _⟩ h; rw [h] at hv; simp at hv
    · intro hne
      obtain ⟨d, l, hl⟩ := List.exists_cons_of_ne_nil hne
      refine ⟨d.vec, by rw [hl]; rfl, fun w hw => ?_⟩
      obtain ⟨e, he, rfl⟩ := List.mem_map.1 hw
      rw [hdim e he, hdim d (by rw [hl]; simp)]
  split at h2
  · rename_i ht
    subst h2
    exact ⟨fun _ => (C01_vecMean_mean _ ht).1, by simpa using hflag.1 ht⟩
  · rename_i ht
    subst h2
    refine ⟨fun h => ?_, by simpa using (not_congr hflag).1 ht⟩
    rcases h with h | h
    · cases h
    · exact h1.evolves.mean hd h

end Centroid

/-! ### Worlds -/

/-- The invariant of a history. -/
structure WorldInv (tk : Nat → Int) (p : Nat) (w : CentroidWorld F) : Prop where
  search : ∀ c ∈ w.cs, SearchOK c.knn ∧ SearchOK c.kfn
  dim : ∀ c ∈ w.cs, c.DimOK
  conserved : Conserved (tk p) w.accepted w.stored w.out

theorem wp_on {tk : Nat → Int} (hm : MonoClock tk) {p : Nat} {w : CentroidWorld F} (hw : WorldInv tk p w) (self : Nat)
    (f : Centroid F → Go (List (DataPoint F) × Centroid F)) (R : Centroid F → Prop)
    (hf : ∀ c ∈ w.cs, Go.wp (f c) (fun r p' => Centroid.CallOK tk p p' c r.2 [] r.1 ∧ R r.2) p) :
    Go.wp (w.on self f) (fun w' p' => p ≤ p' ∧ WorldInv tk p' w' ∧ ∀ c ∈ w'.cs, c ∈ w.cs ∨ R c) p := by
  unfold CentroidWorld.on
  cases h : w.cs[self]? with
  | none => simp only [Go.wp_pure]; exact ⟨Nat.le_refl _, hw, fun c hc => .inl hc⟩
  | some c =>
    have hc := List.mem_of_getElem? h
    simp only [Go.wp_bind, Go.wp_pure]
    refine Go.wp_mono (hf c hc) (fun r p' hr => ?_)
    obtain ⟨hok, hR⟩ := hr
    have hmem : ∀ x ∈ w.cs.set self r.2, x ∈ w.cs ∨ x = r.2 := fun x hx => List.mem_or_eq_of_mem_set hx
    refine ⟨hok.le, ⟨fun x hx => ?_, fun x hx => ?_, ?_⟩, fun x hx => ?_⟩
    · rcases hmem x hx with hx | rfl
      · exact hw.search x hx
      · rw [hok.search.1, hok.search.2]; exact hw.search c hc
    · rcases hmem x hx with hx | rfl
      · exact hw.dim x hx
      · exact hok.dim.2
    · obtain ⟨l1, e1, e1'⟩ := hw.conserved.mono hm hok.le
      obtain ⟨l2, e2, e2'⟩ := hok.conserved
      refine ⟨l1 ++ l2, ?_, fun d hd => ?_⟩
      · have := Centroid.flat_set h r.2
        unfold Centroid.flat at this
        unfold CentroidWorld.stored at *
        permc [e1, e2, this]
      · rcases List.mem_append.1 hd with hd | hd
        · exact e1' d hd
        · exact e2' d hd
    · rcases hmem x hx with hx | rfl
      · exact .inl hx
      · exact .inr hR

/-- One call keeps the invariant; `M` is the mean invariant (or anything else every evolution and `MoveVector` keep). -/
theorem wp_call {tk : Nat → Int} (hm : MonoClock tk) {p : Nat} {w : CentroidWorld F} (hw : WorldInv tk p w)
    (M : Centroid F → Prop) (hM : ∀ c ∈ w.cs, M c)
    (hnew : ∀ v knn kfn, M { vec := v, dps := [], knn := knn, kfn := kfn })
    (hev : ∀ c c', c.DimOK → M c → Centroid.Evolves c c' → M c')
    (hmv : ∀ c, c.DimOK → M c → ∀ q, Go.wp (c.moveVector tk) (fun r _ => M r.2) q)
    (o : CentroidCall F) (ht : o.notTrim ∨ ∀ c, M c) (hn : o.nonneg) (hs : o.goodSearch) :
    Go.wp (o.run tk w) (fun w' p' => p ≤ p' ∧ WorldInv tk p' w' ∧ ∀ c ∈ w'.cs, M c) p := by
  have fin : ∀ {m : Go (CentroidWorld F)}, Go.wp m (fun w' p' => p ≤ p' ∧ WorldInv tk p' w' ∧ ∀ c ∈ w'.cs, c ∈ w.cs ∨ M c) p →
      Go.wp m (fun w' p' => p ≤ p' ∧ WorldInv tk p' w' ∧ ∀ c ∈ w'.cs, M c) p := by
    intro m h
    exact Go.wp_mono h (fun w' p' h => ⟨h.1, h.2.1, fun c hc => (h.2.2 c hc).elim (hM c) id⟩)
  cases o with
  | create v cap knn kfn =>
    simp only [CentroidCall.run, Centroid.new, Go.wp_bind, Go.wp_checkMake, Go.wp_pure]
    refine ⟨hn, Nat.le_refl _, ⟨fun c hc => ?_, fun c hc => ?_, ?_⟩, fun c hc => ?_⟩
    · rcases List.mem_append.1 hc with hc | hc
      · exact hw.search c hc
      · rw [List.mem_singleton.1 hc]; exact hs
    · rcases List.mem_append.1 hc with hc | hc
      · exact hw.dim c hc
      · rw [List.mem_singleton.1 hc]; intro d hd; simp at hd
    · have := hw.conserved
      simpa [CentroidWorld.stored] using this
    · rcases List.mem_append.1 hc with hc | hc
      · exact hM c hc
      · rw [List.mem_singleton.1 hc]; exact hnew _ _ _
  | add self d =>
    simp only [CentroidCall.run]
    cases h : w.cs[self]? with
    | none => simp only [Go.wp_pure]; exact ⟨Nat.le_refl _, hw, hM⟩
    | some c =>
      have hc := List.mem_of_getElem? h
      have hself := Centroid.flat_set h c
      have hset : w.cs.set self c = w.cs := by
        obtain ⟨hi, rfl⟩ := List.getElem?_eq_some_iff.1 h
        exact List.set_getElem_self hi
      simp only [Go.wp_bind, Go.wp_pure, Centroid.wp_addDataPoint]
      split
      · simp only [hset, Bool.false_eq_true, if_false]
        exact ⟨Nat.le_refl _, hw, hM⟩
      · rename_i hl
        split
        · simp only [hset, Bool.false_eq_true, if_false]
          exact ⟨by omega, ⟨hw.search, hw.dim, hw.conserved.mono hm (by omega)⟩, hM⟩
        · have hl' : d.vec.length = c.vec.length := by simpa using hl
          simp only [if_true]
          have hmem : ∀ x ∈ w.cs.set self (c.addRaw d), x ∈ w.cs ∨ x = c.addRaw d := fun x hx => List.mem_or_eq_of_mem_set hx
          refine ⟨by omega, ⟨fun x hx => ?_, fun x hx => ?_, ?_⟩, fun x hx => ?_⟩
          · rcases hmem x hx with hx | rfl
            · exact hw.search x hx
            · exact hw.search c hc
          · rcases hmem x hx with hx | rfl
            · exact hw.dim x hx
            · exact Centroid.addRaw_dimOK hl' (hw.dim c hc)
          · obtain ⟨l1, e1, e1'⟩ := hw.conserved.mono hm (show p ≤ p + 1 by omega)
            refine ⟨l1, ?_, e1'⟩
            have := Centroid.flat_set h (c.addRaw d)
            rw [show (c.addRaw d).dps = c.dps ++ [d] from rfl] at this
            unfold Centroid.flat at this
            unfold CentroidWorld.stored at *
            permc [e1, this]
          · rcases hmem x hx with hx | rfl
            · exact hM x hx
            · exact hev c _ (hw.dim c hc) (hM c hc) (Centroid.addRaw_evolves hl')
  | drainUnordered self n =>
    refine fin (wp_on hm hw self _ M (fun c hc => ?_))
    refine Go.wp_mono (Centroid.callOK_drainUnordered hm c (hw.dim c hc) hn p) (fun r p' hr => ?_)
    exact ⟨hr.1, hev c _ (hw.dim c hc) (hM c hc) hr.2⟩
  | drainOrdered self n =>
    refine fin (wp_on hm hw self _ M (fun c hc => ?_))
    refine Go.wp_mono (Centroid.callOK_drainOrdered hm c (hw.search c hc).2 (hw.dim c hc) hn p) (fun r p' hr => ?_)
    exact ⟨hr.1, hev c _ (hw.dim c hc) (hM c hc) hr.2⟩
  | expire self =>
    refine fin (wp_on hm hw self _ M (fun c hc => ?_))
    simp only [Go.wp_bind, Go.wp_pure]
    refine Go.wp_mono (Centroid.wp_expire hm c p) (fun r p' hr => ?_)
    exact ⟨Centroid.callOK_purged (hw.dim c hc) hr, hev c _ (hw.dim c hc) (hM c hc) hr.evolves⟩
  | memTrim self =>
    have hM' : ∀ c, M c := ht.elim (fun h => h.elim) id
    refine fin (wp_on hm hw self _ M (fun c hc => ?_))
    simp only [Go.wp_bind, Go.wp_pure]
    exact Go.wp_mono (Centroid.callOK_memTrim hm c (hw.dim c hc) p) (fun r p' hr => ⟨hr, hM' _⟩)
  | moveVector self =>
    refine fin (wp_on hm hw self _ M (fun c hc => ?_))
    simp only [Go.wp_bind, Go.wp_pure]
    exact Go.wp_and (Centroid.callOK_moveVector hm c (hw.dim c hc) p) (hmv c (hw.dim c hc) (hM c hc) p)
  | knnLookup self v k drain =>
    refine fin (wp_on hm hw self _ M (fun c hc => ?_))
    simp only [Go.wp_bind, Go.wp_pure]
    refine Go.wp_mono (Centroid.callOK_knnLookup hm c (hw.search c hc).1 (hw.dim c hc) v hn drain p) (fun r p' hr => ?_)
    exact ⟨hr.1, hev c _ (hw.dim c hc) (hM c hc) hr.2⟩
  | distribute self n receivers =>
    simp only [CentroidCall.run, Go.wp_ite, Go.wp_bind, Go.wp_pure]
    refine ⟨fun hself => ?_, fun _ => ⟨Nat.le_refl _, hw, hM⟩⟩
    have hget : w.cs[self]? = some w.cs[self] := List.getElem?_eq_getElem hself
    have hc := List.mem_of_getElem? hget
    refine Go.wp_mono (Centroid.wp_distribute hm w.cs self _ hget (hw.search _ hc).1 (hw.search _ hc).2 (hw.dim _ hc) hn _
      (fun r hr => by simpa using (List.mem_filter.1 hr).2) p) (fun h' p' hr => ?_)
    obtain ⟨h1, h2, h3, h4⟩ := hr
    have hpt : ∀ x ∈ h', ∃ c ∈ w.cs, Centroid.Evolves c x := by
      intro x hx
      obtain ⟨k, hk⟩ := List.mem_iff_getElem?.1 hx
      have hk' : k < w.cs.length := by rw [← h2.1]; exact (List.getElem?_eq_some_iff.1 hk).1
      exact ⟨w.cs[k], List.getElem_mem hk', (h2.2 k _ x (List.getElem?_eq_getElem hk') hk).1⟩
    refine ⟨h1, ⟨fun x hx => ?_, fun x hx => ?_, ?_⟩, fun x hx => ?_⟩
    · obtain ⟨c, hc, he⟩ := hpt x hx
      rw [he.search.1, he.search.2]; exact hw.search c hc
    · obtain ⟨c, hc, he⟩ := hpt x hx
      exact (he.dim (hw.dim c hc)).2
    · obtain ⟨l1, e1, e1'⟩ := hw.conserved.mono hm h1
      obtain ⟨l2, e2, e2'⟩ := h3
      refine ⟨l1 ++ l2, ?_, fun d hd => ?_⟩
      · unfold Centroid.flat at e2
        unfold CentroidWorld.stored at *
        permc [e1, e2]
      · rcases List.mem_append.1 hd with hd | hd
        · exact e1' d hd
        · exact e2' d hd
    · obtain ⟨c, hc, he⟩ := hpt x hx
      exact hev c x (hw.dim c hc) (hM c hc) he

theorem wp_calls {tk : Nat → Int} (hm : MonoClock tk) (M : Centroid F → Prop)
    (hnew : ∀ v knn kfn, M { vec := v, dps := [], knn := knn, kfn := kfn })
    (hev : ∀ c c', c.DimOK → M c → Centroid.Evolves c c' → M c')
    (hmv : ∀ c, c.DimOK → M c → ∀ q, Go.wp (c.moveVector tk) (fun r _ => M r.2) q) :
    ∀ (os : List (CentroidCall F)) (w : CentroidWorld F) (p : Nat), WorldInv tk p w → (∀ c ∈ w.cs, M c) →
      (∀ o ∈ os, (o.notTrim ∨ ∀ c, M c) ∧ o.nonneg ∧ o.goodSearch) →
      Go.wp (runCentroidCalls tk os w) (fun w' p' => p ≤ p' ∧ WorldInv tk p' w' ∧ ∀ c ∈ w'.cs, M c) p
  | [], w, p, hw, hM, _ => by
    unfold runCentroidCalls
    exact ⟨Nat.le_refl _, hw, hM⟩
  | o :: os, w, p, hw, hM, h => by
    unfold runCentroidCalls
    rw [Go.wp_bind]
    obtain ⟨h1, h2, h3⟩ := h o (by simp)
    refine Go.wp_mono (wp_call hm hw M hM hnew hev hmv o h1 h2 h3) (fun w' p' hr => ?_)
    refine Go.wp_mono (wp_calls hm M hnew hev hmv os w' p' hr.2.1 hr.2.2 (fun o' ho' => h o' (by simp [ho'])))
      (fun w'' p'' hr' => ⟨Nat.le_trans hr.1 hr'.1, hr'.2⟩)

theorem worldInv_empty (tk : Nat → Int) (p : Nat) : WorldInv tk p ({ cs := [], accepted := [], out := [] } : CentroidWorld F) :=
  ⟨by simp, by simp, by simpa [CentroidWorld.stored] using Conserved.refl _ _⟩

end Trypo
