import Verif.Proofs.Portions
import Verif.Proofs.CentroidHistory

/-!
# Lemmas about pkg/kmeans/centroidmanager: invariant, draining, expiry, lookup
-/

set_option linter.unusedSectionVars false
set_option linter.unusedVariables false

namespace Trypo
open GoFloat Spec

variable {F : Type} [GoFloat F]

theorem Spec.AllLive.mono {tk : Nat → Int} (hm : MonoClock tk) {p q : Nat} (h : p ≤ q) {l : List (DataPoint F)}
    (hl : AllLive (tk q) l) : AllLive (tk p) l := fun d hd hdead => hl d hd (hdead.mono hm h)

theorem Spec.AllLive.append {t : Int} {a b : List (DataPoint F)} (ha : AllLive t a) (hb : AllLive t b) : AllLive t (a ++ b) :=
  fun d hd => (List.mem_append.1 hd).elim (ha d) (hb d)

namespace Manager
open Centroid (flat flat_set CallOK DimOK)

/-- The invariant of a manager. -/
structure WF (cm : Manager F) : Prop where
  cap : 0 ≤ cm.initCap
  good : SearchOK cm.knn ∧ SearchOK cm.kfn
  search : ∀ c ∈ cm.centroids, c.knn = cm.knn ∧ c.kfn = cm.kfn
  dim : ∀ c ∈ cm.centroids, c.vec.length = cm.vec.length ∧ c.DimOK

/-- The immutable fields. -/
structure Same (cm cm' : Manager F) : Prop where
  knn : cm'.knn = cm.knn
  kfn : cm'.kfn = cm.kfn
  cap : cm'.initCap = cm.initCap
  thr : cm'.threshold = cm.threshold

theorem Same.refl (cm : Manager F) : Same cm cm := ⟨rfl, rfl, rfl, rfl⟩

theorem Same.trans {a b c : Manager F} (h : Same a b) (h' : Same b c) : Same a c :=
  ⟨h'.knn.trans h.knn, h'.kfn.trans h.kfn, h'.cap.trans h.cap, h'.thr.trans h.thr⟩

/-- The effect of an operation that accepted `acc` and handed out `out`. -/
structure Eff (tk : Nat → Int) (p p' : Nat) (cm cm' : Manager F) (acc out : List (DataPoint F)) : Prop where
  le : p ≤ p'
  wf : cm'.WF
  same : Same cm cm'
  conserved : Conserved (tk p') (acc ++ flat cm.centroids) (flat cm'.centroids) out
  len : (∀ d ∈ acc, d.vec.length = cm.vec.length) → cm'.vec.length = cm.vec.length

theorem Eff.refl {tk : Nat → Int} {p : Nat} {cm : Manager F} (h : cm.WF) : Eff tk p p cm cm [] [] :=
  ⟨Nat.le_refl _, h, .refl _, Conserved.refl _ _, fun _ => rfl⟩

theorem Eff.trans {tk : Nat → Int} (hm : MonoClock tk) {p p1 p2 : Nat} {a b c : Manager F}
    {acc acc' out out' : List (DataPoint F)} (h : Eff tk p p1 a b acc out) (h' : Eff tk p1 p2 b c acc' out') :
    Eff tk p p2 a c (acc ++ acc') (out ++ out') := by
  refine ⟨Nat.le_trans h.le h'.le, h'.wf, h.same.trans h'.same, ?_, fun hd => ?_⟩
  case refine_2 =>
    have h1 := h.len (fun d hd' => hd d (List.mem_append_left _ hd'))
    exact (h'.len (fun d hd' => (hd d (List.mem_append_right _ hd')).trans h1.symm)).trans h1
  obtain ⟨l1, e1, e1'⟩ := h.conserved.mono hm h'.le
  obtain ⟨l2, e2, e2'⟩ := h'.conserved
  refine ⟨l1 ++ l2, by permc [e1, e2], fun d hd => (List.mem_append.1 hd).elim (e1' d) (e2' d)⟩

/-- Replacing a centroid with the vector adjustment. -/
def upd (cm : Manager F) (i : Nat) (old : List F) (c' : Centroid F) : Manager F :=
  { cm with centroids := cm.centroids.set i c' }.updateVec old c'.vec

theorem updateVec_length (cm : Manager F) {old new : List F} (h1 : old.length = cm.vec.length) (h2 : new.length = cm.vec.length) :
    (cm.updateVec old new).vec.length = cm.vec.length := by
  simp [updateVec, vecDivScalar, vecAdd, vecSub, vecMulScalar, h1, h2]

theorem dropVec_length (cm : Manager F) {v : List F} (h1 : v.length = cm.vec.length) :
    (cm.dropVec v).vec.length = cm.vec.length := by
  simp [dropVec, vecDivScalar, vecSub, vecMulScalar, h1]

theorem Same.updateVec (cm : Manager F) (o n : List F) : Same cm (cm.updateVec o n) := ⟨rfl, rfl, rfl, rfl⟩
theorem Same.upd (cm : Manager F) (i : Nat) (o : List F) (c' : Centroid F) : Same cm (cm.upd i o c') := ⟨rfl, rfl, rfl, rfl⟩

@[simp] theorem upd_centroids (cm : Manager F) (i : Nat) (o : List F) (c' : Centroid F) :
    (cm.upd i o c').centroids = cm.centroids.set i c' := rfl

theorem WF.set {cm : Manager F} (h : cm.WF) {i : Nat} {c c' : Centroid F} (hc : cm.centroids[i]? = some c)
    (hs : c'.knn = c.knn ∧ c'.kfn = c.kfn) (hd : c'.vec.length = c.vec.length ∧ c'.DimOK) :
    ({ cm with centroids := cm.centroids.set i c' } : Manager F).WF := by
  have hcm := List.mem_of_getElem? hc
  refine ⟨h.cap, h.good, fun x hx => ?_, fun x hx => ?_⟩
  · rcases List.mem_or_eq_of_mem_set hx with hx | rfl
    · exact h.search x hx
    · rw [hs.1, hs.2]; exact h.search c hcm
  · rcases List.mem_or_eq_of_mem_set hx with hx | rfl
    · exact h.dim x hx
    · exact ⟨hd.1.trans (h.dim c hcm).1, hd.2⟩

theorem WF.updateVec {cm : Manager F} (h : cm.WF) {old new : List F} (h1 : old.length = cm.vec.length)
    (h2 : new.length = cm.vec.length) : (cm.updateVec old new).WF := by
  refine ⟨h.cap, h.good, h.search, fun x hx => ?_⟩
  rw [updateVec_length cm h1 h2]
  exact h.dim x hx

theorem WF.upd {cm : Manager F} (h : cm.WF) {i : Nat} {c c' : Centroid F} (hc : cm.centroids[i]? = some c)
    (hs : c'.knn = c.knn ∧ c'.kfn = c.kfn) (hd : c'.vec.length = c.vec.length ∧ c'.DimOK) : (cm.upd i c.vec c').WF := by
  have h1 := (h.dim c (List.mem_of_getElem? hc)).1
  exact (h.set hc hs hd).updateVec h1 (hd.1.trans h1)

theorem Eff.upd {tk : Nat → Int} {p p' : Nat} {cm : Manager F} (h : cm.WF) {i : Nat} {c c' : Centroid F}
    {acc out : List (DataPoint F)} (hc : cm.centroids[i]? = some c) (hok : CallOK tk p p' c c' acc out) :
    Eff tk p p' cm (cm.upd i c.vec c') acc out := by
  have h1 := (h.dim c (List.mem_of_getElem? hc)).1
  refine ⟨hok.le, h.upd hc hok.search hok.dim, .upd _ _ _ _, ?_, fun _ => updateVec_length _ h1 (hok.dim.1.trans h1)⟩
  obtain ⟨l, e1, e2⟩ := hok.conserved
  have := flat_set hc c'
  exact ⟨l, by rw [upd_centroids]; permc [e1, this], e2⟩

theorem wp_onCentroid {α : Type} {tk : Nat → Int} {cm : Manager F} (hw : cm.WF) {i : Nat} {c : Centroid F}
    (hc : cm.centroids[i]? = some c) (f : Centroid F → Go (α × Centroid F)) {p : Nat}
    (R : Centroid F → α → List (DataPoint F) → Nat → Prop)
    (hf : Go.wp (f c) (fun r p' => ∃ out, CallOK tk p p' c r.2 [] out ∧ R r.2 r.1 out p') p) :
    Go.wp (cm.onCentroid i f) (fun r p' => ∃ out c', Eff tk p p' cm r.2 [] out ∧ r.2 = cm.upd i c.vec c' ∧
      CallOK tk p p' c c' [] out ∧ R c' r.1 out p') p := by
  unfold onCentroid
  simp only [Go.wp_bind, Go.wp_idx, Go.wp_pure]
  refine ⟨c, hc, Go.wp_mono hf (fun r p' hr => ?_)⟩
  obtain ⟨out, h1, h2⟩ := hr
  exact ⟨out, r.2, Eff.upd hw hc h1, rfl, h1, h2⟩

/-- The manager only lost datapoints, with its vector adjusted at every step. -/
inductive Shrinks : Manager F → Manager F → Prop
  | refl (cm : Manager F) : Shrinks cm cm
  | step {cm cm' : Manager F} {i : Nat} {c c' : Centroid F} (hc : cm.centroids[i]? = some c)
      (hl : c'.vec.length = c.vec.length) (hs : c'.dps.Sublist c.dps) (rest : Shrinks (cm.upd i c.vec c') cm') :
      Shrinks cm cm'

theorem Shrinks.trans {a b c : Manager F} (h : Shrinks a b) (h' : Shrinks b c) : Shrinks a c := by
  induction h with
  | refl => exact h'
  | step hc hl hs rest ih => exact .step hc hl hs (ih h')

theorem Shrinks.length {a b : Manager F} (h : Shrinks a b) : b.centroids.length = a.centroids.length := by
  induction h with
  | refl => rfl
  | step hc hl hs rest ih => rw [ih]; simp

theorem Shrinks.pointwise {a b : Manager F} (h : Shrinks a b) {i : Nat} {c : Centroid F} (hc : a.centroids[i]? = some c) :
    ∃ c', b.centroids[i]? = some c' ∧ c'.dps.Sublist c.dps := by
  induction h generalizing c with
  | refl => exact ⟨c, hc, List.Sublist.refl _⟩
  | @step cm cm' j x x' hx hl hs rest ih =>
    have hlt := (List.getElem?_eq_some_iff.1 hx).1
    rcases eq_or_ne j i with rfl | hne
    · rw [hx] at hc; cases hc
      obtain ⟨c', h1, h2⟩ := ih (c := x') (by rw [upd_centroids, List.getElem?_set_self hlt])
      exact ⟨c', h1, h2.trans hs⟩
    · exact ih (by rw [upd_centroids, List.getElem?_set_ne hne]; exact hc)

/-! ### Draining -/

/-- What the draining methods of a centroid guarantee. -/
def DrainFun (tk : Nat → Int) (f : Centroid F → Int → Go (List (DataPoint F) × Centroid F)) : Prop :=
  ∀ (c : Centroid F) (k q : Nat), SearchOK c.kfn → c.DimOK → Go.wp (f c k) (fun r p' => CallOK tk q p' c r.2 [] r.1 ∧
    r.2.dps.Sublist c.dps ∧ AllLive (tk q) r.1 ∧ r.1.length ≤ k) q

theorem drainFun_unordered {tk : Nat → Int} (hm : MonoClock tk) :
    DrainFun tk (fun (c : Centroid F) k => c.drainUnordered tk k) := by
  intro c k q hs hd
  refine Go.wp_mono (Go.wp_and (Centroid.wp_drainUnordered tk c (n := k) (by omega) q)
    (Centroid.callOK_drainUnordered hm c hd (n := k) (by omega) q)) (fun r p' hr => ?_)
  obtain ⟨⟨pre, h1, h2, h3, h4, h5, h6, h7⟩, hok, _⟩ := hr
  exact ⟨hok, h1.sublist, by rw [h3]; exact liveReads_live hm pre q q (Nat.le_refl _), by omega⟩

theorem drainFun_ordered {tk : Nat → Int} (hm : MonoClock tk) :
    DrainFun tk (fun (c : Centroid F) k => c.drainOrdered tk k) := by
  intro c k q hs hd
  refine Go.wp_mono (Go.wp_and (Centroid.wp_drainOrdered hm c hs (n := k) (by omega) q)
    (Centroid.callOK_drainOrdered hm c hs hd (n := k) (by omega) q)) (fun r p' hr => ?_)
  obtain ⟨h1, ⟨removed, h2⟩, h3, h4, h5, h6⟩ := hr.1.facts
  exact ⟨hr.2.1, h2.sublist, h4, by omega⟩

theorem wp_drainLoop {tk : Nat → Int} (hm : MonoClock tk) {f : Centroid F → Int → Go (List (DataPoint F) × Centroid F)}
    (hf : DrainFun tk f) : ∀ (es : List (Nat × Nat)) (cm : Manager F) (res : List (DataPoint F)) (p : Nat), cm.WF →
      (∀ e ∈ es, e.1 < cm.centroids.length) →
      Go.wp (drainLoop f es cm res) (fun r p' => ∃ out, r.1 = res ++ out ∧ Eff tk p p' cm r.2 [] out ∧ Shrinks cm r.2 ∧
        AllLive (tk p) out ∧ out.length ≤ (es.map (fun e => e.2)).sum) p
  | [], cm, res, p, hw, _ => by
    unfold drainLoop
    rw [Go.wp_pure]
    exact ⟨[], by simp, .refl hw, .refl _, by intro d hd; simp at hd, by simp⟩
  | (i, portion) :: es, cm, res, p, hw, hr => by
    unfold drainLoop
    simp only [Go.wp_bind]
    have hi : i < cm.centroids.length := hr (i, portion) (by simp)
    have hc : cm.centroids[i]? = some cm.centroids[i] := List.getElem?_eq_getElem hi
    have hcm := List.getElem_mem hi
    generalize cm.centroids[i] = c at hc hcm
    have hsrch : SearchOK c.kfn := by rw [(hw.search c hcm).2]; exact hw.good.2
    refine Go.wp_mono (wp_onCentroid hw hc _
      (fun c' o out p' => o = out ∧ c'.dps.Sublist c.dps ∧ AllLive (tk p) out ∧ out.length ≤ portion)
      (Go.wp_mono (hf c portion p hsrch (hw.dim c hcm).2) (fun r p' h => ⟨r.1, h.1, rfl, h.2⟩))) (fun r p1 hr1 => ?_)
    obtain ⟨out1, c', e1, e2, e3, rfl, e4, e5, e6⟩ := hr1
    refine Go.wp_mono (wp_drainLoop hm hf es r.2 _ p1 e1.wf (fun e he => ?_)) (fun s p2 hs => ?_)
    · rw [e2]; simpa using hr e (by simp [he])
    · obtain ⟨out2, g1, g2, g3, g4, g5⟩ := hs
      refine ⟨r.1 ++ out2, by rw [g1]; simp, by simpa using e1.trans hm g2, ?_, e5.append (g4.mono hm e1.le), ?_⟩
      · exact .step hc e3.dim.1 e4 (by rw [← e2]; exact g3)
      · simp only [List.length_append, List.map_cons, List.sum_cons]; omega

/-- Map iteration orders only permute. -/
def OrdOK (ord : List (Nat × Nat) → List (Nat × Nat)) : Prop := ∀ l, (ord l).Perm l

theorem ord_lt {ord : List (Nat × Nat) → List (Nat × Nat)} (ho : OrdOK ord) {cm : Manager F} {n : Int} :
    ∀ e ∈ ord (cm.portionEntries n), e.1 < cm.centroids.length := by
  intro e he
  obtain ⟨_, _, c, hc, _⟩ := entries_mem (i := e.1) (v := e.2) ((ho _).mem_iff.1 he)
  exact (List.getElem?_eq_some_iff.1 hc).1

theorem ord_sum {ord : List (Nat × Nat) → List (Nat × Nat)} (ho : OrdOK ord) (cm : Manager F) (n : Int) :
    ((((ord (cm.portionEntries n)).map (fun e => e.2)).sum : Nat) : Int) ≤ max n 1 := by
  rw [((ho (cm.portionEntries n)).map (fun e => e.2)).sum_eq, entries_sum]
  exact portions_sum_le _ _

theorem wp_drainUnordered {tk : Nat → Int} (hm : MonoClock tk) {ord : List (Nat × Nat) → List (Nat × Nat)} (ho : OrdOK ord)
    {cm : Manager F} (hw : cm.WF) {n : Int} (hn : 0 ≤ n) (p : Nat) :
    Go.wp (cm.drainUnordered tk ord n) (fun r p' => Eff tk p p' cm r.2 [] r.1 ∧ Shrinks cm r.2 ∧ AllLive (tk p) r.1 ∧
      (r.1.length : Int) ≤ max n 1) p := by
  unfold drainUnordered
  simp only [Go.wp_bind, Go.wp_checkMake]
  refine ⟨hn, Go.wp_mono (wp_drainLoop hm (drainFun_unordered hm) _ cm [] p hw (ord_lt ho)) (fun r p' hr => ?_)⟩
  obtain ⟨out, h1, h2, h3, h4, h5⟩ := hr
  rw [List.nil_append] at h1
  have := ord_sum ho cm n
  rw [h1]
  exact ⟨h2, h3, h4, by omega⟩

theorem wp_drainOrdered {tk : Nat → Int} (hm : MonoClock tk) {ord : List (Nat × Nat) → List (Nat × Nat)} (ho : OrdOK ord)
    {cm : Manager F} (hw : cm.WF) {n : Int} (hn : 0 ≤ n) (p : Nat) :
    Go.wp (cm.drainOrdered tk ord n) (fun r p' => Eff tk p p' cm r.2 [] r.1 ∧ Shrinks cm r.2 ∧ AllLive (tk p) r.1 ∧
      (r.1.length : Int) ≤ max n 1) p := by
  unfold drainOrdered
  simp only [Go.wp_bind, Go.wp_checkMake]
  refine ⟨hn, Go.wp_mono (wp_drainLoop hm (drainFun_ordered hm) _ cm [] p hw (ord_lt ho)) (fun r p' hr => ?_)⟩
  obtain ⟨out, h1, h2, h3, h4, h5⟩ := hr
  rw [List.nil_append] at h1
  have := ord_sum ho cm n
  rw [h1]
  exact ⟨h2, h3, h4, by omega⟩

/-! ### Expire -/

theorem wp_expireLoop {tk : Nat → Int} (hm : MonoClock tk) : ∀ (is : List Nat) (cm : Manager F) (p : Nat), cm.WF →
    (∀ i ∈ is, i < cm.centroids.length) → Go.wp (expireLoop tk is cm) (fun cm' p' => Eff tk p p' cm cm' [] [] ∧ Shrinks cm cm' ∧
      (∀ (k : Nat) (c c' : Centroid F), cm.centroids[k]? = some c → cm'.centroids[k]? = some c' → k ∈ is →
        AllLive (tk p) c'.dps)) p
  | [], cm, p, hw, _ => by
    unfold expireLoop
    rw [Go.wp_pure]
    exact ⟨.refl hw, .refl _, by simp⟩
  | i :: is, cm, p, hw, hr => by
    unfold expireLoop
    simp only [Go.wp_bind]
    have hi : i < cm.centroids.length := hr i (by simp)
    have hc : cm.centroids[i]? = some cm.centroids[i] := List.getElem?_eq_getElem hi
    have hcm := List.getElem_mem hi
    generalize cm.centroids[i] = c at hc hcm
    refine Go.wp_mono (wp_onCentroid (tk := tk) hw hc _ (fun c' _ out p' => out = [] ∧ Survivors (tk p) (tk p') c.dps c'.dps) ?_)
      (fun r p1 hr1 => ?_)
    · simp only [Go.wp_bind, Go.wp_pure]
      refine Go.wp_mono (Centroid.wp_expire hm c p) (fun c' p' h => ?_)
      exact ⟨[], Centroid.callOK_purged (hw.dim c hcm).2 h, rfl, h.survivors⟩
    · obtain ⟨out, c', e1, e2, e3, rfl, e4⟩ := hr1
      refine Go.wp_mono (wp_expireLoop hm is r.2 p1 e1.wf (fun k hk => ?_)) (fun cm' p2 hs => ?_)
      · rw [e2]; simpa using hr k (by simp [hk])
      · obtain ⟨g1, g2, g3⟩ := hs
        have hsub : c'.dps.Sublist c.dps := e4.drops.trans List.filter_sublist
        have hlive : AllLive (tk p) c'.dps := Centroid.Survivors.live e4
        have hget : r.2.centroids[i]? = some c' := by rw [e2, upd_centroids, List.getElem?_set_self hi]
        refine ⟨by simpa using e1.trans hm g1, .step hc e3.dim.1 hsub (by rw [← e2]; exact g2), ?_⟩
        intro k a a' ha ha' hk
        by_cases hki : k = i
        · subst hki
          obtain ⟨x, hx, hxs⟩ := g2.pointwise hget
          rw [ha'] at hx; cases hx
          exact fun d hd => hlive d (hxs.subset hd)
        · have hk : k ∈ is := by
            rcases List.mem_cons.1 hk with h | h
            · exact absurd h hki
            · exact h
          have hak : r.2.centroids[k]? = some a := by
            rw [e2, upd_centroids, List.getElem?_set_ne (Ne.symm hki)]; exact ha
          exact (g3 k a a' hak ha' hk).mono hm e1.le

theorem wp_expire {tk : Nat → Int} (hm : MonoClock tk) {cm : Manager F} (hw : cm.WF) (p : Nat) :
    Go.wp (cm.expire tk) (fun cm' p' => Eff tk p p' cm cm' [] [] ∧ Shrinks cm cm' ∧ AllLive (tk p) (flat cm'.centroids)) p := by
  unfold expire
  refine Go.wp_mono (wp_expireLoop hm _ cm p hw (by simp)) (fun cm' p' h => ⟨h.1, h.2.1, ?_⟩)
  intro d hd
  unfold flat at hd
  obtain ⟨c', hc', hd⟩ := List.mem_flatMap.1 hd
  obtain ⟨k, hk⟩ := List.mem_iff_getElem?.1 hc'
  have hlt : k < cm.centroids.length := by rw [← h.2.1.length]; exact (List.getElem?_eq_some_iff.1 hk).1
  exact h.2.2 k _ c' (List.getElem?_eq_getElem hlt) hk (by simpa using hlt) d hd

/-! ### KNNLookup -/

theorem wp_lookupTake (tk : Nat → Int) (k : Int) (drain : Bool) : ∀ (dps res : List (DataPoint F)) (c : Centroid F) (p : Nat),
    (res.length + dps.length : Int) ≤ k → Go.wp (lookupTake tk k drain dps res c) (fun r p' => p' = p ∧ r = (res ++ dps, c)) p
  | [], res, c, p, _ => by unfold lookupTake; rw [Go.wp_pure]; simp
  | d :: dps, res, c, p, h => by
    unfold lookupTake
    simp only [List.length_cons, Nat.cast_add, Nat.cast_one] at h
    rw [if_pos (by omega)]
    refine Go.wp_mono (wp_lookupTake tk k drain dps (res ++ [d]) c p (by simp; omega)) (fun r p' hr => ?_)
    simpa using hr

/-- The datapoints of the centroid at an index. -/
def atD (cs : List (Centroid F)) (i : Nat) : List (DataPoint F) := (cs[i]?.map (fun c => c.dps)).getD []

theorem atD_get {cs : List (Centroid F)} {i : Nat} {c : Centroid F} (h : cs[i]? = some c) : atD cs i = c.dps := by
  simp [atD, h]

theorem flat_range : ∀ cs : List (Centroid F), flat cs = (List.range cs.length).flatMap (atD cs)
  | [] => by simp [flat]
  | c :: cs => by
    have ih := flat_range cs
    rw [List.length_cons, List.range_succ_eq_map, List.flatMap_cons, List.flatMap_map]
    have h0 : atD (c :: cs) 0 = c.dps := by simp [atD]
    have h1 : (fun i => atD (c :: cs) (Nat.succ i)) = atD cs := by funext i; simp [atD]
    rw [h0, h1, ← ih]
    simp [flat]

/-- Distinct centroids hold a sub-bag of everything stored. -/
theorem subbag_of_nodup {cs : List (Centroid F)} {is : List Nat} (hnd : is.Nodup) (hr : ∀ i ∈ is, i < cs.length) :
    ∃ rest, (is.flatMap (atD cs) ++ rest).Perm (flat cs) := by
  have hsub : List.Subperm is (List.range cs.length) :=
    List.subperm_of_subset hnd (fun i hi => List.mem_range.2 (hr i hi))
  obtain ⟨l, hl, hs⟩ := hsub
  obtain ⟨r, hr'⟩ := hs.exists_perm_append
  refine ⟨r.flatMap (atD cs), ?_⟩
  rw [flat_range cs, ← List.flatMap_append]
  exact ((hl.symm.append_right r).trans hr'.symm).flatMap_right _

theorem flatMap_atD_congr {cs cs' : List (Centroid F)} {is : List Nat} (h : ∀ i ∈ is, cs'[i]? = cs[i]?) :
    is.flatMap (atD cs') = is.flatMap (atD cs) := by
  induction is with
  | nil => rfl
  | cons i is ih =>
    rw [List.flatMap_cons, List.flatMap_cons, ih (fun j hj => h j (by simp [hj]))]
    simp [atD, h i (by simp)]

/-- What a lookup over the centroids `is` guarantees. -/
structure LookupPost (tk : Nat → Int) (k : Int) (drain : Bool) (is : List Nat) (cm : Manager F) (p : Nat)
    (cm' : Manager F) (out : List (DataPoint F)) (had : Nat) (p' : Nat) : Prop where
  eff : Eff tk p p' cm cm' [] (if drain then out else [])
  shrinks : Shrinks cm cm'
  live : AllLive (tk p) out
  count : (had + out.length : Int) ≤ k
  before : ∃ rest, (out ++ rest).Perm (is.flatMap (atD cm.centroids))
  after : drain = false → ∃ rest, (out ++ rest).Perm (is.flatMap (atD cm'.centroids))
  frame : ∀ m, m ∉ is → cm'.centroids[m]? = cm.centroids[m]?

theorem LookupPost.nil {tk : Nat → Int} {k : Int} {drain : Bool} {is : List Nat} {cm : Manager F} {p had : Nat} (hw : cm.WF)
    (h : (had : Int) ≤ k) : LookupPost tk k drain is cm p cm [] had p where
  eff := by cases drain <;> exact .refl hw
  shrinks := .refl _
  live := by intro d hd; simp at hd
  count := by simpa using h
  before := ⟨_, List.Perm.refl _⟩
  after := fun _ => ⟨_, List.Perm.refl _⟩
  frame := fun _ _ => rfl

theorem wp_lookupLoop {tk : Nat → Int} (hm : MonoClock tk) (v : List F) {k : Int} (drain : Bool) :
    ∀ (is : List Nat) (cm : Manager F) (res : List (DataPoint F)) (p : Nat), cm.WF → is.Nodup →
      (∀ i ∈ is, i < cm.centroids.length) → (res.length : Int) ≤ k →
      Go.wp (lookupLoop tk v k drain is cm res) (fun r p' => ∃ out, r.1 = res ++ out ∧
        LookupPost tk k drain is cm p r.2 out res.length p') p
  | [], cm, res, p, hw, _, _, hres => by
    unfold lookupLoop
    rw [Go.wp_pure]
    exact ⟨[], by simp, .nil hw hres⟩
  | i :: is, cm, res, p, hw, hnd, hr, hres => by
    unfold lookupLoop
    rw [Go.wp_ite]
    constructor
    · intro _
      rw [Go.wp_pure]
      exact ⟨[], by simp, .nil hw hres⟩
    · intro hlt
      simp only [Go.wp_bind]
      have hi : i < cm.centroids.length := hr i (by simp)
      have hc : cm.centroids[i]? = some cm.centroids[i] := List.getElem?_eq_getElem hi
      have hcm := List.getElem_mem hi
      generalize cm.centroids[i] = c at hc hcm
      have hsrch : SearchOK c.knn := by rw [(hw.search c hcm).1]; exact hw.good.1
      refine Go.wp_mono (wp_onCentroid (tk := tk) hw hc _ (fun c' o out p' => ∃ got, o = res ++ got ∧
        out = (if drain then got else []) ∧ c'.dps.Sublist c.dps ∧ AllLive (tk p) got ∧ (res.length + got.length : Int) ≤ k ∧
        (∃ rest, (got ++ rest).Perm c.dps) ∧ (drain = false → ∃ rest, (got ++ rest).Perm c'.dps)) ?_)
        (fun r p1 hr1 => ?_)
      · simp only [Go.wp_bind]
        refine Go.wp_mono (Go.wp_and (Centroid.wp_knnLookup hm c hsrch v (n := k - res.length) (by omega) drain p)
          (Centroid.callOK_knnLookup hm c hsrch (hw.dim c hcm).2 v (k := k - res.length) (by omega) drain p))
          (fun q p' hq => ?_)
        obtain ⟨hq, hok, _⟩ := hq
        have facts : AllLive (tk p) q.1 ∧ (q.1.length : Int) ≤ k - res.length ∧ q.2.dps.Sublist c.dps ∧
            (∃ rest, (q.1 ++ rest).Perm c.dps) ∧ (drain = false → ∃ rest, (q.1 ++ rest).Perm q.2.dps) := by
          cases drain with
          | true =>
            rw [if_pos rfl] at hq
            obtain ⟨h1, ⟨removed, h2⟩, ⟨lost, h3, _⟩, h4, h5, h6⟩ := Centroid.DrainEffect.facts hq
            exact ⟨h4, h5, h2.sublist, ⟨q.2.dps ++ lost, by permc [h3]⟩, by simp⟩
          | false =>
            rw [if_neg (by simp)] at hq
            obtain ⟨h1, h2, h3, h4, h5, rest, h6⟩ := Centroid.LookupEffect.facts hq
            obtain ⟨removed, h7, _⟩ := h2.steps
            have h8 := h7.perm
            exact ⟨h3, h4, h7.sublist, ⟨rest ++ removed, by permc [h6, h8]⟩, fun _ => ⟨rest, h6⟩⟩
        obtain ⟨f1, f2, f3, f4, f5⟩ := facts
        refine Go.wp_mono (wp_lookupTake tk k drain q.1 res q.2 p' (by omega)) (fun s p'' hs => ?_)
        obtain ⟨rfl, rfl⟩ := hs
        exact ⟨_, hok, q.1, rfl, rfl, f3, f1, by omega, f4, f5⟩
      · obtain ⟨out, c', e1, e2, e3, got, g1, g2, g3, g4, g5, ⟨rest, g6⟩, g7⟩ := hr1
        have hni : i ∉ is := (List.nodup_cons.1 hnd).1
        refine Go.wp_mono (wp_lookupLoop hm v drain is r.2 r.1 p1 e1.wf (List.nodup_cons.1 hnd).2 (fun j hj => ?_) ?_)
          (fun s p2 hs => ?_)
        · rw [e2]; simpa using hr j (by simp [hj])
        · rw [g1]; simpa using g5
        · obtain ⟨out2, s1, hs⟩ := hs
          have hcount := hs.count
          refine ⟨got ++ out2, by rw [s1, g1]; simp, ?_, .step hc e3.dim.1 g3 (by rw [← e2]; exact hs.shrinks),
            g4.append (hs.live.mono hm e1.le), ?_, ?_, ?_, ?_⟩
          · have := e1.trans hm hs.eff
            rw [g2] at this
            cases drain <;> simpa using this
          · rw [g1] at hcount
            simp only [List.length_append, Nat.cast_add] at hcount ⊢
            omega
          · obtain ⟨rest2, h2⟩ := hs.before
            have hcg : is.flatMap (atD r.2.centroids) = is.flatMap (atD cm.centroids) := flatMap_atD_congr (fun j hj => by
              rw [e2, upd_centroids, List.getElem?_set_ne (fun h : i = j => hni (by rw [h]; exact hj))])
            rw [hcg] at h2
            refine ⟨rest ++ rest2, ?_⟩
            rw [List.flatMap_cons, atD_get hc]
            permc [g6, h2]
          · intro hdr
            obtain ⟨rest2, h2⟩ := hs.after hdr
            obtain ⟨rest1, h1⟩ := g7 hdr
            have hci : s.2.centroids[i]? = some c' := by
              rw [hs.frame i hni, e2, upd_centroids, List.getElem?_set_self hi]
            refine ⟨rest1 ++ rest2, ?_⟩
            rw [List.flatMap_cons, atD_get hci]
            permc [h1, h2]
          · intro m hm'
            rw [hs.frame m (fun h => hm' (by simp [h])), e2, upd_centroids,
              List.getElem?_set_ne (fun h => hm' (by simp [h]))]

theorem wp_knnLookup {tk : Nat → Int} (hm : MonoClock tk) {cm : Manager F} (hw : cm.WF) (v : List F) {k : Int} (hk : 0 ≤ k)
    (drain : Bool) (p : Nat) : Go.wp (cm.knnLookup tk v k drain) (fun r p' => ∃ is, cm.knn v cm.centroidVecs k = .ok is ∧
      is.Nodup ∧ (∀ i ∈ is, i < cm.centroids.length) ∧ LookupPost tk k drain is cm p r.2 r.1 0 p') p := by
  unfold knnLookup
  simp only [Go.wp_bind, Go.wp_checkMake, Go.wp_lift]
  obtain ⟨r, h1, h2, h3, h4⟩ := hw.good.1 v cm.centroidVecs k hk
  have hr : ∀ i ∈ r, i < cm.centroids.length := by
    intro i hi; have := h3 i hi; rwa [centroidVecs, List.length_map] at this
  refine ⟨hk, r, h1, Go.wp_mono (wp_lookupLoop hm v drain r cm [] p hw h2 hr (by simpa using hk)) (fun q p' hq => ?_)⟩
  obtain ⟨out, e1, e2⟩ := hq
  rw [List.nil_append] at e1
  exact ⟨r, h1, h2, hr, by rw [e1]; exact e2⟩

end Manager
end Trypo
