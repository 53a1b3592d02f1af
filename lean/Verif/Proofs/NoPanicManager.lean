import Verif.Proofs.NoPanic
import Verif.Proofs.Manager4

/-!
# Nothing panics: centroid managers
-/

namespace Trypo
open Spec Centroid

variable {F : Type} [GoFloat F]

set_option linter.unusedSectionVars false

namespace Manager

theorem lax_centroids {m : Manager F} (hm : MLax m) {cs : List (Centroid F)} (h : AllLax cs) : MLax { m with centroids := cs } :=
  ⟨hm.cap, hm.knn, hm.kfn, h⟩

theorem lax_vec {m : Manager F} (hm : MLax m) (v : List F) : MLax { m with vec := v } := ⟨hm.cap, hm.knn, hm.kfn, hm.cs⟩

theorem lax_updateVec {m : Manager F} (hm : MLax m) (a b : List F) : MLax (m.updateVec a b) := lax_vec hm _

theorem lax_dropVec {m : Manager F} (hm : MLax m) (a : List F) : MLax (m.dropVec a) := lax_vec hm _

theorem AllLax.append {a b : List (Centroid F)} (ha : AllLax a) (hb : AllLax b) : AllLax (a ++ b) := fun c hc =>
  (List.mem_append.1 hc).elim (ha c) (hb c)

theorem AllLax.one {c : Centroid F} (hc : CLax c) : AllLax [c] := fun x hx => by
  rw [List.mem_singleton.1 hx]; exact hc

theorem np_newCentroid {m : Manager F} (hm : MLax m) (v : List F) (p : Nat) : Go.wp (m.newCentroid v) (fun c _ => CLax c) p := by
  unfold newCentroid Centroid.new
  simp only [Go.wp_bind, Go.wp_checkMake, Go.wp_pure]
  exact ⟨hm.cap, hm.knn, hm.kfn⟩

theorem np_on {α : Type} {m : Manager F} (hm : MLax m) {i : Nat} (hi : i < m.centroids.length) (f : Centroid F → Go (α × Centroid F))
    {Q : α → Prop} {p : Nat} (hf : ∀ c p, CLax c → Go.wp (f c) (fun r _ => Kept c r.2 ∧ Q r.1) p) :
    Go.wp (m.onCentroid i f) (fun r _ => MLax r.2 ∧ r.2.centroids.length = m.centroids.length ∧ Q r.1) p := by
  unfold onCentroid
  simp only [Go.wp_bind, Go.wp_idx, Go.wp_pure]
  obtain ⟨c, e, hc⟩ := hm.cs.get hi
  refine ⟨c, e, Go.wp_mono (hf c p hc) (fun r p1 hr => ⟨?_, ?_, hr.2⟩)⟩
  · exact lax_updateVec (lax_centroids hm (hm.cs.set i (hr.1.lax hc))) _ _
  · simp [updateVec]

theorem np_addAll (tk : Nat → Int) : ∀ (ds : List (DataPoint F)) (c : Centroid F) (p : Nat), Go.wp (addAll tk ds c) (fun c' _ => Kept c c') p
  | [], c, p => Kept.refl c
  | d :: ds, c, p => by
    unfold addAll
    rw [Go.wp_bind]
    refine Go.wp_mono (np_add tk c d p) (fun r p1 h1 => ?_)
    exact Go.wp_mono (np_addAll tk ds r.2 p1) (fun c' p2 h2 => h1.trans h2)

theorem np_split (tk : Nat → Int) {m : Manager F} (hm : MLax m) (i : Nat) (n : Int) (p : Nat) :
    Go.wp (m.splitCentroid tk i n) (fun r _ => MLax r.2 ∧ r.2.centroids.length = m.centroids.length ∧ ∀ c, r.1 = some c → CLax c) p := by
  unfold splitCentroid
  cases hc : m.centroids[i]? with
  | none => exact ⟨hm, rfl, fun c h => by simp at h⟩
  | some old =>
    simp only [Go.wp_ite]
    refine ⟨fun _ => ⟨hm, rfl, fun c h => by simp at h⟩, fun hn => ?_⟩
    simp only [Go.wp_bind]
    refine Go.wp_mono (np_newCentroid hm _ p) (fun nc p1 h1 => ?_)
    refine Go.wp_mono (np_drainUnordered tk old (by omega) p1) (fun r p2 h2 => ?_)
    refine Go.wp_mono (np_addAll tk r.1 nc p2) (fun nc' p3 h3 => ⟨?_, by simp, fun c h => ?_⟩)
    · exact lax_centroids hm (hm.cs.set i (h2.lax (hm.cs _ (List.mem_of_getElem? hc))))
    · cases h
      exact h3.lax h1

theorem np_mAdd (tk : Nat → Int) {m : Manager F} (hm : MLax m) (d : DataPoint F) (p : Nat) :
    Go.wp (m.addDataPoint tk d) (fun r _ => MLax r.2) p := by
  unfold addDataPoint
  simp only [Go.wp_bind, DataPoint.wp_expired, Go.wp_ite]
  refine ⟨fun _ => hm, fun _ => ⟨fun _ => ?_, fun hl => ?_⟩⟩
  · refine Go.wp_mono (np_newCentroid hm _ _) (fun c p1 h1 => ?_)
    refine Go.wp_mono (np_add tk c d p1) (fun r p2 h2 => ?_)
    exact lax_vec (lax_centroids hm (AllLax.append hm.cs (AllLax.one (h2.lax h1)))) _
  · rw [Go.wp_lift]
    obtain ⟨is, e, h1, h2, _⟩ := hm.knn d.vec m.centroidVecs 1 (by decide)
    refine ⟨is, e, ?_⟩
    cases is with
    | nil => exact hm
    | cons j js =>
      have hj : j < m.centroids.length := by
        have := h2 j (by simp)
        simpa [centroidVecs] using this
      simp only [Go.wp_bind, Go.wp_idx]
      obtain ⟨c, e2, hc⟩ := hm.cs.get hj
      refine ⟨c, e2, Go.wp_mono (np_add tk c d _) (fun r p1 hr => ?_)⟩
      have hs : MLax { m with centroids := m.centroids.set j r.2 } := lax_centroids hm (hm.cs.set j (hr.lax hc))
      rw [Go.wp_ite]
      refine ⟨fun _ => hs, fun _ => ?_⟩
      rw [Go.wp_ite]
      refine ⟨fun _ => ?_, fun _ => lax_updateVec hs _ _⟩
      rw [Go.wp_bind]
      refine Go.wp_mono (np_split tk (lax_updateVec hs _ _) j _ p1) (fun s p2 h3 => ?_)
      cases hs1 : s.1 with
      | none => exact h3.1
      | some nc => exact lax_centroids h3.1 (AllLax.append h3.1.cs (AllLax.one (h3.2.2 nc hs1)))

theorem np_drainLoop {f : Centroid F → Int → Go (List (DataPoint F) × Centroid F)}
    (hf : ∀ c (k : Nat) p, CLax c → Go.wp (f c k) (fun r _ => Kept c r.2) p) : ∀ (l : List (Nat × Nat)) (m : Manager F) (res : List (DataPoint F)) (p : Nat),
    MLax m → (∀ e ∈ l, e.1 < m.centroids.length) → Go.wp (drainLoop f l m res) (fun r _ => MLax r.2) p
  | [], m, res, p, hm, _ => hm
  | (i, k) :: l, m, res, p, hm, h => by
    unfold drainLoop
    rw [Go.wp_bind]
    refine Go.wp_mono (np_on (Q := fun _ => True) hm (h _ (List.mem_cons_self ..)) _ (fun c p hc => Go.wp_mono (hf c k p hc) (fun r _ h => ⟨h, trivial⟩))) (fun r p1 hr => ?_)
    exact np_drainLoop hf l r.2 _ p1 hr.1 (fun e he => by rw [hr.2.1]; exact h e (List.mem_cons_of_mem _ he))

theorem np_mDrainUnordered (tk : Nat → Int) {ord : List (Nat × Nat) → List (Nat × Nat)} (ho : ∀ l, (ord l).Perm l) {m : Manager F} (hm : MLax m) {n : Int}
    (hn : 0 ≤ n) (p : Nat) : Go.wp (m.drainUnordered tk ord n) (fun r _ => MLax r.2) p := by
  unfold drainUnordered
  simp only [Go.wp_bind, Go.wp_checkMake]
  refine ⟨hn, np_drainLoop (fun c k p hc => np_drainUnordered tk c (by omega) p) _ m [] p hm (ord_lt ho)⟩

theorem np_mDrainOrdered (tk : Nat → Int) {ord : List (Nat × Nat) → List (Nat × Nat)} (ho : ∀ l, (ord l).Perm l) {m : Manager F} (hm : MLax m) {n : Int}
    (hn : 0 ≤ n) (p : Nat) : Go.wp (m.drainOrdered tk ord n) (fun r _ => MLax r.2) p := by
  unfold drainOrdered
  simp only [Go.wp_bind, Go.wp_checkMake]
  refine ⟨hn, np_drainLoop (fun c k p hc => np_drainOrdered tk c hc (by omega) p) _ m [] p hm (ord_lt ho)⟩

theorem np_mExpireLoop (tk : Nat → Int) : ∀ (is : List Nat) (m : Manager F) (p : Nat), MLax m → (∀ i ∈ is, i < m.centroids.length) →
    Go.wp (expireLoop tk is m) (fun m' _ => MLax m') p
  | [], m, p, hm, _ => hm
  | i :: is, m, p, hm, h => by
    unfold expireLoop
    rw [Go.wp_bind]
    refine Go.wp_mono (np_on (Q := fun _ => True) hm (h i (by simp)) _ (fun c p hc => ?_)) (fun r p1 hr => ?_)
    · simp only [Go.wp_bind, Go.wp_pure]
      exact Go.wp_mono (np_expire tk c p) (fun c' _ h => ⟨h, trivial⟩)
    · exact np_mExpireLoop tk is r.2 p1 hr.1 (fun j hj => by rw [hr.2.1]; exact h j (List.mem_cons_of_mem _ hj))

theorem np_mExpire (tk : Nat → Int) {m : Manager F} (hm : MLax m) (p : Nat) : Go.wp (m.expire tk) (fun m' _ => MLax m') p :=
  np_mExpireLoop tk _ m p hm (fun _ hi => List.mem_range.1 hi)

theorem np_mMemTrimLoop (tk : Nat → Int) : ∀ (is : List Nat) (m : Manager F) (acc : List (Centroid F)) (p : Nat), MLax m →
    (∀ i ∈ is, i < m.centroids.length) → AllLax acc → Go.wp (memTrimLoop tk is m acc) (fun r _ => MLax r.2 ∧ AllLax r.1) p
  | [], m, acc, p, hm, _, ha => ⟨hm, ha⟩
  | i :: is, m, acc, p, hm, h, ha => by
    unfold memTrimLoop
    rw [Go.wp_bind]
    refine Go.wp_mono (np_on (Q := fun c => CLax c) hm (h i (by simp)) _ (fun c p hc => ?_)) (fun r p1 hr => ?_)
    · simp only [Go.wp_bind, Go.wp_pure]
      exact Go.wp_mono (np_memTrim tk c p) (fun c' _ h => ⟨h, h.lax hc⟩)
    · have ha' : AllLax (if r.1.lenDP ≠ 0 then acc ++ [r.1] else acc) := by
        split
        · exact AllLax.append ha (AllLax.one hr.2.2)
        · exact ha
      have h' : ∀ j ∈ is, j < r.2.centroids.length := fun j hj => by rw [hr.2.1]; exact h j (List.mem_cons_of_mem _ hj)
      simp only [Go.wp_ite]
      exact ⟨fun _ => np_mMemTrimLoop tk is _ _ p1 (lax_dropVec hr.1 _) h' ha', fun _ => np_mMemTrimLoop tk is _ _ p1 hr.1 h' ha'⟩

theorem np_mMemTrim (tk : Nat → Int) {m : Manager F} (hm : MLax m) (p : Nat) : Go.wp (m.memTrim tk) (fun m' _ => MLax m') p := by
  unfold memTrim
  rw [Go.wp_bind]
  exact Go.wp_mono (np_mMemTrimLoop tk _ m [] p hm (fun _ hi => List.mem_range.1 hi) (fun c hc => by simp at hc))
    (fun r p1 hr => lax_centroids hr.1 hr.2)

theorem np_moveAll (tk : Nat → Int) : ∀ (cs : List (Centroid F)) (p : Nat), AllLax cs → Go.wp (moveAll tk cs) (fun cs' _ => AllLax cs') p
  | [], p, h => h
  | c :: cs, p, h => by
    unfold moveAll
    simp only [Go.wp_bind]
    refine Go.wp_mono (np_moveVector tk c p) (fun r p1 h1 => ?_)
    refine Go.wp_mono (np_moveAll tk cs p1 (fun x hx => h x (List.mem_cons_of_mem _ hx))) (fun cs' p2 h2 => ?_)
    intro x hx
    rcases List.mem_cons.1 hx with rfl | hx
    · exact h1.lax (h c (by simp))
    · exact h2 x hx

theorem np_mMoveVector (tk : Nat → Int) {m : Manager F} (hm : MLax m) (p : Nat) : Go.wp (m.moveVector tk) (fun r _ => MLax r.2) p := by
  unfold moveVector
  rw [Go.wp_bind]
  refine Go.wp_mono (np_moveAll tk _ p hm.cs) (fun cs p1 h => ?_)
  rw [Go.wp_ite]
  exact ⟨fun _ => lax_vec (lax_centroids hm h) _, fun _ => lax_centroids hm h⟩

theorem np_mDistributeLoop (tk : Nat → Int) {rs : List Nat} : ∀ (l : List (Nat × Nat)) (h : List (Centroid F)) (p : Nat), AllLax h →
    (∀ e ∈ l, e.1 < h.length) → (∀ r ∈ rs, r < h.length) → Go.wp (distributeLoop tk rs l h) (fun h' _ => AllLax h' ∧ h'.length = h.length) p
  | [], h, p, hh, _, _ => ⟨hh, rfl⟩
  | (i, k) :: l, h, p, hh, hl, hr => by
    unfold distributeLoop
    rw [Go.wp_bind]
    refine Go.wp_mono (np_distribute tk hh (hl _ (List.mem_cons_self ..)) (by omega) hr p) (fun h1 p1 hh1 => ?_)
    refine Go.wp_mono (np_mDistributeLoop tk l h1 p1 hh1.1 (fun e he => by rw [hh1.2]; exact hl e (List.mem_cons_of_mem _ he))
      (by rw [hh1.2]; exact hr)) (fun h2 p2 hh2 => ⟨hh2.1, hh2.2.trans hh1.2⟩)

theorem np_mDistribute (tk : Nat → Int) {ord : List (Nat × Nat) → List (Nat × Nat)} (ho : ∀ l, (ord l).Perm l) {m : Manager F} (hm : MLax m) (n : Int)
    {ext : List (Centroid F)} (he : AllLax ext) {rs : List Nat} (hr : ∀ r ∈ rs, r < m.centroids.length + ext.length) (p : Nat) :
    Go.wp (m.distribute tk ord n ext rs) (fun r _ => MLax r.1) p := by
  unfold distribute
  rw [Go.wp_ite]
  refine ⟨fun _ => hm, fun _ => ?_⟩
  simp only [Go.wp_bind]
  refine Go.wp_mono (np_mDistributeLoop tk _ _ p (AllLax.append hm.cs he) (fun e h => ?_) (by simpa using hr)) (fun h p1 hh => ?_)
  · have := ord_lt ho e h
    simp only [List.length_append]; omega
  · exact Go.wp_mono (np_mMoveVector tk (lax_centroids hm (fun c hc => hh.1 c (List.mem_of_mem_take hc))) p1) (fun r p2 h => h)

theorem np_mDistributeInternal (tk : Nat → Int) {ord : List (Nat × Nat) → List (Nat × Nat)} (ho : ∀ l, (ord l).Perm l) {m : Manager F} (hm : MLax m)
    (n : Int) (p : Nat) : Go.wp (m.distributeInternal tk ord n) (fun m' _ => MLax m') p := by
  unfold distributeInternal
  rw [Go.wp_bind]
  exact Go.wp_mono (np_mDistribute tk ho hm n (fun c hc => by simp at hc) (fun r hr => by simpa using hr) p) (fun r p1 h => h)

theorem np_lookupTake (tk : Nat → Int) (k : Int) (drain : Bool) : ∀ (l res : List (DataPoint F)) (c : Centroid F) (p : Nat),
    Go.wp (lookupTake tk k drain l res c) (fun r _ => Kept c r.2) p
  | [], res, c, p => Kept.refl c
  | d :: l, res, c, p => by
    unfold lookupTake
    simp only [Go.wp_ite]
    refine ⟨fun _ => np_lookupTake tk k drain l _ c p, fun _ => ⟨fun _ => ?_, fun _ => np_lookupTake tk k drain l _ c p⟩⟩
    rw [Go.wp_bind]
    refine Go.wp_mono (np_add tk c d p) (fun r p1 h1 => ?_)
    exact Go.wp_mono (np_lookupTake tk k drain l _ r.2 p1) (fun q p2 h2 => h1.trans h2)

theorem np_lookupLoop (tk : Nat → Int) (v : List F) (k : Int) (drain : Bool) : ∀ (is : List Nat) (m : Manager F) (res : List (DataPoint F)) (p : Nat),
    MLax m → (∀ i ∈ is, i < m.centroids.length) → Go.wp (lookupLoop tk v k drain is m res) (fun r _ => MLax r.2) p
  | [], m, res, p, hm, _ => hm
  | i :: is, m, res, p, hm, h => by
    unfold lookupLoop
    rw [Go.wp_ite]
    refine ⟨fun _ => hm, fun hk => ?_⟩
    rw [Go.wp_bind]
    refine Go.wp_mono (np_on (Q := fun _ => True) hm (h i (by simp)) _ (fun c p hc => ?_)) (fun r p1 hr => ?_)
    · rw [Go.wp_bind]
      refine Go.wp_mono (np_knnLookup tk c hc v (by omega) drain p) (fun q p1 h1 => ?_)
      exact Go.wp_mono (np_lookupTake tk k drain _ _ _ p1) (fun r p2 h2 => ⟨h1.trans h2, trivial⟩)
    · exact np_lookupLoop tk v k drain is r.2 _ p1 hr.1 (fun j hj => by rw [hr.2.1]; exact h j (List.mem_cons_of_mem _ hj))

theorem np_mKnnLookup (tk : Nat → Int) {m : Manager F} (hm : MLax m) (v : List F) {k : Int} (hk : 0 ≤ k) (drain : Bool) (p : Nat) :
    Go.wp (m.knnLookup tk v k drain) (fun r _ => MLax r.2) p := by
  unfold knnLookup
  simp only [Go.wp_bind, Go.wp_checkMake, Go.wp_lift]
  obtain ⟨is, e, _, h2, _⟩ := hm.knn v m.centroidVecs k hk
  exact ⟨hk, is, e, np_lookupLoop tk v k drain is m [] p hm (fun i hi => by simpa [centroidVecs] using h2 i hi)⟩

theorem np_deleteAll {is : List Nat} {m : Manager F} (hm : MLax m) (hd : is.Pairwise (· > ·)) (h : ∀ i ∈ is, i < m.centroids.length) (p : Nat) :
    Go.wp (deleteAll is m) (fun m' _ => MLax m') p := by
  induction is generalizing m p with
  | nil => exact hm
  | cons i is ih =>
    obtain ⟨hd1, hd2⟩ := List.pairwise_cons.1 hd
    unfold deleteAll deleteAt
    simp only [Go.wp_bind, Go.wp_idx, Go.wp_pure]
    obtain ⟨c, e, hc⟩ := hm.cs.get (h i (by simp))
    refine ⟨c, e, ?_⟩
    refine ih (lax_centroids (lax_dropVec hm _) (fun x hx => ?_)) hd2 (fun j hj => ?_) p
    · exact (lax_dropVec hm _).cs x (List.mem_of_mem_eraseIdx hx)
    · have h1 := hd1 j hj
      have h2 := h i (by simp)
      have : (m.dropVec c.vec).centroids = m.centroids := rfl
      simp only [this, List.length_eraseIdx, h2, if_true]
      omega

theorem np_nearestCentroids {m : Manager F} (hm : MLax m) (v : List F) {n : Int} (hn : 0 ≤ n) (drain : Bool) (p : Nat) :
    Go.wp (m.nearestCentroids v n drain) (fun r _ => MLax r.2 ∧ ∀ cs, r.1 = some cs → (cs.length : Int) ≤ n) p := by
  unfold nearestCentroids
  simp only [Go.wp_bind, Go.wp_lift]
  obtain ⟨is, e, h1, h2, h3⟩ := hm.knn v m.centroidVecs n hn
  have h2' : ∀ i ∈ is, i < m.centroids.length := fun i hi => by simpa [centroidVecs] using h2 i hi
  refine ⟨is, e, ?_⟩
  rw [Go.wp_ite]
  refine ⟨fun _ => ⟨hm, fun cs h => by simp at h⟩, fun _ => ?_⟩
  simp only [Go.wp_bind, Go.wp_checkMake]
  refine ⟨hn, Go.wp_mono (wp_getAll m is p h2') (fun cs p1 hcs => ?_)⟩
  have hl : (cs.length : Int) ≤ n := by
    have := congrArg List.length hcs.2
    simp only [List.length_map] at this
    omega
  rw [Go.wp_ite]
  refine ⟨fun _ => ?_, fun _ => ⟨hm, fun cs' h => by cases h; exact hl⟩⟩
  rw [Go.wp_bind]
  refine Go.wp_mono (np_deleteAll hm (sortInts_desc h1) (fun i hi => h2' i ((sortInts_perm is).mem_iff.1 (List.mem_reverse.1 hi))) p1) (fun m' p2 hm' => ?_)
  exact ⟨hm', fun cs' h => by cases h; exact hl⟩

theorem np_splitLoop (tk : Nat → Int) (split : Centroid F → Bool) : ∀ (is : List Nat) (m : Manager F) (acc : List (Centroid F)) (p : Nat), MLax m →
    (∀ i ∈ is, i < m.centroids.length) → AllLax acc → Go.wp (splitLoop tk split is m acc) (fun r _ => MLax r.2 ∧ AllLax r.1) p
  | [], m, acc, p, hm, _, ha => ⟨hm, ha⟩
  | i :: is, m, acc, p, hm, h, ha => by
    unfold splitLoop
    simp only [Go.wp_bind, Go.wp_idx]
    obtain ⟨c, e, hc⟩ := hm.cs.get (h i (by simp))
    refine ⟨c, e, ?_⟩
    have h' : ∀ j ∈ is, j < m.centroids.length := fun j hj => h j (List.mem_cons_of_mem _ hj)
    rw [Go.wp_ite]
    refine ⟨fun _ => np_splitLoop tk split is m acc p hm h' ha, fun _ => ?_⟩
    rw [Go.wp_bind]
    refine Go.wp_mono (np_split tk hm i _ p) (fun r p1 hr => ?_)
    cases hr1 : r.1 with
    | none => exact np_splitLoop tk split is r.2 acc p1 hr.1 (by rw [hr.2.1]; exact h') ha
    | some nc => exact np_splitLoop tk split is r.2 _ p1 hr.1 (by rw [hr.2.1]; exact h') (AllLax.append ha (AllLax.one (hr.2.2 nc hr1)))

theorem np_splitCentroids (tk : Nat → Int) {m : Manager F} (hm : MLax m) (split : Centroid F → Bool) (p : Nat) :
    Go.wp (m.splitCentroids tk split) (fun m' _ => MLax m') p := by
  unfold splitCentroids
  rw [Go.wp_bind]
  exact Go.wp_mono (np_splitLoop tk split _ m [] p hm (fun _ hi => List.mem_range.1 hi) (fun c hc => by simp at hc))
    (fun r p1 hr => lax_centroids hr.1 (AllLax.append hr.1.cs hr.2))

theorem np_mergeInner (tk : Nat → Int) (merge : Centroid F → Bool) {i : Nat} : ∀ (js marks : List Nat) (cs : List (Centroid F)) (p : Nat), AllLax cs →
    i < cs.length → (∀ j ∈ js, j < cs.length) → Go.wp (mergeInner tk merge i js marks cs) (fun r _ => AllLax r.2 ∧ r.2.length = cs.length) p
  | [], marks, cs, p, hc, _, _ => ⟨hc, rfl⟩
  | j :: js, marks, cs, p, hc, hi, hj => by
    unfold mergeInner
    rw [Go.wp_ite]
    have hj' : ∀ k ∈ js, k < cs.length := fun k hk => hj k (List.mem_cons_of_mem _ hk)
    refine ⟨fun _ => np_mergeInner tk merge js marks cs p hc hi hj', fun _ => ?_⟩
    simp only [Go.wp_bind, Go.wp_idx]
    obtain ⟨o, e, ho⟩ := hc.get (hj j (by simp))
    refine ⟨o, e, Go.wp_mono (np_drainUnordered tk o (by omega) p) (fun r p1 h1 => ?_)⟩
    have hc1 := hc.set j (h1.lax ho)
    obtain ⟨cand, e2, hcand⟩ := hc1.get (i := i) (by simpa using hi)
    refine ⟨cand, e2, Go.wp_mono (np_addAll tk _ cand p1) (fun cand' p2 h2 => ?_)⟩
    have hc2 := hc1.set i (h2.lax hcand)
    rw [Go.wp_ite]
    refine ⟨fun _ => ⟨hc2, by simp⟩, fun _ => ?_⟩
    refine Go.wp_mono (np_mergeInner tk merge js _ _ p2 hc2 (by simpa using hi) (by simpa using hj')) (fun q p3 hq => ⟨hq.1, ?_⟩)
    rw [hq.2]; simp

theorem np_mergeOuter (tk : Nat → Int) (merge : Centroid F → Bool) : ∀ (is marks : List Nat) (m : Manager F) (p : Nat), MLax m →
    (∀ i ∈ is, i < m.centroids.length) → Go.wp (mergeOuter tk merge is marks m) (fun r _ => MLax r.2 ∧ r.2.centroids.length = m.centroids.length) p
  | [], marks, m, p, hm, _ => ⟨hm, rfl⟩
  | i :: is, marks, m, p, hm, h => by
    unfold mergeOuter
    simp only [Go.wp_bind, Go.wp_idx]
    obtain ⟨cand, e, hc⟩ := hm.cs.get (h i (by simp))
    refine ⟨cand, e, ?_⟩
    have h' : ∀ j ∈ is, j < m.centroids.length := fun j hj => h j (List.mem_cons_of_mem _ hj)
    rw [Go.wp_ite]
    refine ⟨fun _ => np_mergeOuter tk merge is marks m p hm h', fun _ => ?_⟩
    simp only [Go.wp_bind, Go.wp_lift, Go.wp_idx]
    obtain ⟨js, e2, _, h2, _⟩ := hm.knn cand.vec m.centroidVecs m.centroids.length (by omega)
    refine ⟨js, e2, Go.wp_mono (np_mergeInner tk merge js marks _ p hm.cs (h i (by simp)) (fun j hj => by simpa [centroidVecs] using h2 j hj)) (fun r p1 hr => ?_)⟩
    obtain ⟨cand', e3, hc'⟩ := hr.1.get (i := i) (by rw [hr.2]; exact h i (by simp))
    refine ⟨cand', e3, ?_⟩
    refine Go.wp_mono (np_mergeOuter tk merge is r.1 _ p1 (lax_updateVec (lax_centroids hm hr.1) _ _) ?_) (fun q p2 hq => ⟨hq.1, ?_⟩)
    · intro j hj
      have : ({ m with centroids := r.2 }.updateVec cand.vec cand'.vec).centroids = r.2 := rfl
      rw [this, hr.2]
      exact h' j hj
    · rw [hq.2]
      exact hr.2

theorem np_mergeCentroids (tk : Nat → Int) {m : Manager F} (hm : MLax m) (merge : Centroid F → Bool) (p : Nat) :
    Go.wp (m.mergeCentroids tk merge) (fun m' _ => MLax m') p := by
  unfold mergeCentroids
  rw [Go.wp_bind]
  refine Go.wp_mono (np_mergeOuter tk merge _ [] m p hm (fun _ hi => List.mem_range.1 hi)) (fun r p1 hr => ?_)
  refine np_deleteAll hr.1 ?_ (fun i hi => ?_) p1
  · refine List.Pairwise.filter _ ?_
    rw [List.pairwise_reverse]
    exact List.pairwise_lt_range
  · rw [hr.2]
    exact List.mem_range.1 (List.mem_reverse.1 (List.mem_filter.1 hi).1)

end Manager
end Trypo
