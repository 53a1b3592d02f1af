import Verif.Props.Harvest
import Verif.Spec.Place
import Verif.Proofs.KNN2
import Mathlib.Data.Multiset.UnionInter

/-!
# C107, C108: datapoints are placed at the nearest centroid
-/

set_option linter.unusedSectionVars false
set_option linter.unusedVariables false

namespace Trypo
open GoFloat Spec

variable {F : Type} [GoFloat F] [LawfulCmp F]

theorem nearest_of_brute {v : List F} {vecs : List (List F)} {res : List Nat}
    (hr : knnBrute v vecs ((1 : Nat) : Int) false cosineSimilarity = .ok res) : Nearest v vecs res.head? := by
  obtain ⟨res', h1, h⟩ := knnBrute_kbest v cosineSimilarity false 1 vecs
  rw [hr] at h1
  cases h1
  cases res with
  | nil =>
    intro i t hs
    have h1 := h.length
    obtain ⟨u, hu, ht, hc⟩ := hs
    have : 0 < vecs.countP (isCandidate (cosineSimilarity v) false) := by
      rw [List.countP_pos_iff]
      exact ⟨u, List.mem_of_getElem? hu, by simp [isCandidate, ht, hc]⟩
    simp only [List.length_nil] at h1
    omega
  | cons j js =>
    have h1 := h.length
    have hjs : js = [] := by
      cases js with
      | nil => rfl
      | cons a b => simp only [List.length_cons] at h1; omega
    subst hjs
    obtain ⟨s, hs⟩ := h.valid j (by simp)
    refine ⟨s, hs, fun i t ht => ⟨fun hb => ?_, fun hi => knnBrute_first v cosineSimilarity false hr hs hi ht⟩⟩
    by_cases hij : i = j
    · subst hij
      rw [hasScore_unique hs ht] at hb
      exact absurd hb (better_irrefl _ _)
    · exact h.best j (by simp) i (by simpa using hij) s t hs ht hb

theorem nearest_of_search {v : List F} {vecs : List (List F)} {j : Nat} (h : knnCos v vecs 1 = .ok [j]) : Nearest v vecs (some j) :=
  nearest_of_brute h

/-- Adding succeeds if the length fits and the datapoint does not expire. -/
theorem Centroid.add_ok {tk : Nat → Int} {c : Centroid F} {d : DataPoint F} (hl : d.vec.length = c.vec.length) {p : Nat}
    (hd : ¬ Dead (tk p) d) : c.addDataPoint tk d p = .ok ((true, c.addRaw d), p + 1) := by
  have : Go.wp (c.addDataPoint tk d) (fun r p' => r = (true, c.addRaw d) ∧ p' = p + 1) p := by
    rw [Centroid.wp_addDataPoint, if_neg (by simpa using hl), if_neg (by rw [expiredAt_iff]; exact hd)]
    exact ⟨rfl, rfl⟩
  obtain ⟨r, p', h, rfl, rfl⟩ := Go.wp_iff.1 this
  exact h

theorem Centroid.receiverVecs_some {h : List (Centroid F)} {receivers : List Nat} (hr : ∀ r ∈ receivers, r < h.length) :
    receivers.map (fun r => h[r]?.map (fun c => c.vec)) = (receiverVecs h receivers).map some := by
  unfold receiverVecs
  rw [List.map_map]
  refine List.map_congr_left (fun r hr' => ?_)
  have := hr r hr'
  simp [List.getElem?_eq_getElem this]

namespace Centroid

theorem wp_placing {tk : Nat → Int} (self : Nat) (receivers : List Nat) :
    ∀ (ds : List (DataPoint F)) (h : List (Centroid F)) (p : Nat) (c : Centroid F), h[self]? = some c → c.knn = knnCos →
      (∀ r ∈ receivers, r < h.length) → (∀ d ∈ ds, d.vec.length = c.vec.length) → (∀ d ∈ ds, ∀ q, ¬ Dead (tk q) d) →
      Go.wp (distributeLoop tk self receivers ds h) (fun h' _ => Placing tk self receivers ds h h') p
  | [], h, p, c, hc, hk, hr, hl, hd => by
    unfold distributeLoop
    rw [Go.wp_pure]
    exact .done h
  | d :: ds, h, p, c, hc, hk, hr, hl, hd => by
    unfold distributeLoop
    have hself : self < h.length := (List.getElem?_eq_some_iff.1 hc).1
    have hdl : d.vec.length = c.vec.length := hl d (by simp)
    have hlive : ∀ q, ¬ Dead (tk q) d := hd d (by simp)
    simp only [Go.wp_bind, Go.wp_idx, Go.wp_lift]
    refine ⟨c, hc, ?_⟩
    obtain ⟨is, h1, h2⟩ := knnBrute_kbest d.vec cosineSimilarity false 1 (receiverVecs h receivers)
    refine ⟨is, by rw [hk]; exact h1, ?_⟩
    have hn := nearest_of_brute h1
    have hv := receiverVecs_some hr
    cases is with
    | nil =>
      simp only [Go.wp_bind]
      refine Go.wp_iff.2 ⟨_, _, add_ok hdl (hlive p), ?_⟩
      refine Go.wp_mono (wp_placing self receivers ds _ (p + 1) (c.addRaw d) (List.getElem?_set_self hself) hk (by simpa using hr)
        (fun e he => by rw [addRaw_vec_length hdl]; exact hl e (by simp [he])) (fun e he => hd e (by simp [he]))) (fun h' p' hp => ?_)
      exact .back hv hn hc (add_ok hdl (hlive p)) hp
    | cons j js =>
      simp only [Go.wp_bind, Go.wp_idx]
      obtain ⟨s, ⟨u, hu, hus, _⟩, _⟩ := hn
      have hj : j < receivers.length := by simpa [receiverVecs] using (List.getElem?_eq_some_iff.1 hu).1
      have hrj : receivers[j] < h.length := hr _ (List.getElem_mem hj)
      have hgj : receivers[j]? = some receivers[j] := List.getElem?_eq_getElem hj
      refine ⟨receivers[j], hgj, ?_⟩
      have huv : u = h[receivers[j]].vec := by
        unfold receiverVecs at hu
        rw [List.getElem?_map, hgj] at hu
        simpa [List.getElem?_eq_getElem hrj] using hu.symm
      generalize receivers[j] = rj at hrj hgj huv
      have hrc : h[rj]? = some h[rj] := List.getElem?_eq_getElem hrj
      generalize h[rj] = x at hrc huv
      refine ⟨x, hrc, ?_⟩
      have hdx : d.vec.length = x.vec.length := by
        by_contra hne
        have := (C04_cos_fails_iff d.vec x.vec).2 hne
        rw [← huv, hus] at this; cases this
      refine Go.wp_iff.2 ⟨_, _, add_ok hdx (hlive p), ?_⟩
      simp only [if_true]
      have hsl : self < (h.set rj (x.addRaw d)).length := by simpa using hself
      obtain ⟨c', hc', hck, hcl⟩ : ∃ c', (h.set rj (x.addRaw d))[self]? = some c' ∧ c'.knn = knnCos ∧ c'.vec.length = c.vec.length := by
        rcases eq_or_ne rj self with heq | hne
        · subst heq
          rw [hc] at hrc; cases hrc
          exact ⟨_, List.getElem?_set_self hrj, hk, addRaw_vec_length hdl⟩
        · exact ⟨c, by rw [List.getElem?_set_ne hne]; exact hc, hk, rfl⟩
      refine Go.wp_mono (wp_placing self receivers ds _ (p + 1) c' hc' hck (by simpa using hr)
        (fun e he => by rw [hcl]; exact hl e (by simp [he])) (fun e he => hd e (by simp [he]))) (fun h' p' hp => ?_)
      exact .near hv (nearest_of_brute h1) hgj hrc (add_ok hdx (hlive p)) hp

end Centroid

theorem Spec.Survivors.same {t t' : Int} {b a : List (DataPoint F)} (h : Survivors t t' b a) (hd : ∀ d ∈ b, ¬ Dead t' d) : a = b := by
  have h1 : b.Sublist a := by
    have := h.keeps
    rwa [List.filter_eq_self.2 (by intro d hx; simpa using hd d hx)] at this
  exact ((h.drops.trans (List.filter_sublist)).antisymm h1)

theorem Centroid.wp_distribute_place {tk : Nat → Int} (hm : MonoClock tk) (h : List (Centroid F)) (self : Nat) (c : Centroid F)
    (hc : h[self]? = some c) (hk : c.knn = knnCos) (hf : c.kfn = kfnCos) (hd : c.DimOK) (n : Nat) (receivers : List Nat)
    (hne : receivers ≠ []) (hr : ∀ r ∈ receivers, r < h.length) (hl : ∀ d ∈ c.dps, ∀ q, ¬ Dead (tk q) d) (p : Nat) :
    Go.wp (Centroid.distribute tk h self n receivers) (fun h' _ => Distributed tk receivers self n h h') p := by
  unfold distribute
  rw [Go.wp_ite]
  refine ⟨fun h0 => absurd (List.length_eq_zero_iff.1 h0) hne, fun _ => ?_⟩
  simp only [Go.wp_bind, Go.wp_idx]
  refine ⟨c, hc, ?_⟩
  have hok : SearchOK c.kfn := by rw [hf]; exact (searchOK_prefabs (F := F)).2.1
  obtain ⟨r, p1, h0, hdr⟩ := Go.wp_iff.1 (wp_drainOrdered hm c hok (n := (n : Int)) (by omega) p)
  refine Go.wp_iff.2 ⟨r, p1, h0, ?_⟩
  obtain ⟨e1, ⟨removed, e2⟩, _, _, _, e6⟩ := hdr.facts
  rw [hf] at hdr
  obtain ⟨surv, s1, s2, s3, s4, s5⟩ := Centroid.DrainEffect.best hdr
  have hs : surv = c.dps := s1.same (fun d hx => hl d hx _)
  subst hs
  have hlen : self < h.length := (List.getElem?_eq_some_iff.1 hc).1
  have hdim := e2.dim hd
  refine Go.wp_mono (wp_placing self receivers r.1 (h.set self r.2) p1 r.2 (List.getElem?_set_self hlen)
    (by rw [e2.search.1]; exact hk) (by simpa using hr) (fun d hx => by rw [hdim.1]; exact hd d (e6 d hx)) (fun d hx => hl d (e6 d hx)))
    (fun h' p2 hp => ?_)
  exact ⟨c, r.2, r.1, p, p1, hc, h0, s2, s4, s5, hp⟩


namespace Manager

theorem wp_redistribute {tk : Nat → Int} (hm : MonoClock tk) (receivers : List Nat) (hne : receivers ≠ []) :
    ∀ (es : List (Nat × Nat)) (h : List (Centroid F)) (p : Nat), (∀ r ∈ receivers, r < h.length) →
      (∀ e ∈ es, ∃ c, h[e.1]? = some c ∧ c.knn = knnCos ∧ c.kfn = kfnCos ∧ c.DimOK) → (∀ d ∈ Centroid.flat h, ∀ q, ¬ Dead (tk q) d) →
      Go.wp (distributeLoop tk receivers es h) (fun h' _ => Redistributing tk receivers es h h' ∧ (Centroid.flat h').Perm (Centroid.flat h)) p
  | [], h, p, _, _, _ => by
    unfold distributeLoop
    rw [Go.wp_pure]
    exact ⟨.done h, List.Perm.refl _⟩
  | (i, n) :: es, h, p, hr, he, hl => by
    unfold distributeLoop
    rw [Go.wp_bind]
    obtain ⟨c, hc, hk, hf, hd⟩ := he (i, n) (by simp)
    have hsub : ∀ d ∈ c.dps, d ∈ Centroid.flat h := fun d hx => List.mem_flatMap.2 ⟨c, List.mem_of_getElem? hc, hx⟩
    have hpre := searchOK_prefabs (F := F)
    refine Go.wp_mono (Go.wp_and
      (Centroid.wp_distribute_place hm h i c hc hk hf hd n receivers hne hr (fun d hx => hl d (hsub d hx)) p)
      (Centroid.wp_distribute hm h i c hc (by rw [hk]; exact hpre.1) (by rw [hf]; exact hpre.2.1) hd (n := (n : Int)) (by omega) receivers hr p))
      (fun h1 p1 q => ?_)
    obtain ⟨q0, q1, q2, q3, q4⟩ := q
    have hperm := Conserved.perm_of_live q3 hl
    refine Go.wp_mono (wp_redistribute hm receivers hne es h1 p1 (by rw [q2.1]; exact hr) (fun e hx => ?_)
      (fun d hx => hl d (hperm.subset hx))) (fun h' p' hp => ⟨.next q0 hp.1, hp.2.trans hperm⟩)
    obtain ⟨c, hc, hk, hf, hd⟩ := he e (by simp [hx])
    have hlt : e.1 < h1.length := by rw [q2.1]; exact (List.getElem?_eq_some_iff.1 hc).1
    have hc1 := List.getElem?_eq_getElem hlt
    have hev := (q2.2 e.1 c _ hc hc1).1
    exact ⟨_, hc1, by rw [hev.search.1]; exact hk, by rw [hev.search.2]; exact hf, (hev.dim hd).2⟩

end Manager

theorem dps_eq_of_sublist : ∀ {cs cs' : List (Centroid F)}, List.Forall₂ (fun c c' => c'.dps.Sublist c.dps) cs cs' →
    (Centroid.flat cs).length ≤ (Centroid.flat cs').length → cs'.map (fun c => c.dps) = cs.map (fun c => c.dps)
  | _, _, .nil, _ => rfl
  | c :: cs, c' :: cs', .cons h hs, hl => by
    have h1 := h.length_le
    have hlen : ∀ {a b : List (Centroid F)}, List.Forall₂ (fun c c' => c'.dps.Sublist c.dps) a b → (Centroid.flat b).length ≤ (Centroid.flat a).length := by
      intro a b hab
      induction hab with
      | nil => exact Nat.le_refl _
      | cons h _ ih => have := h.length_le; simp only [Centroid.flat, List.flatMap_cons, List.length_append] at ih ⊢; omega
    have h2 := hlen hs
    simp only [Centroid.flat, List.flatMap_cons, List.length_append] at hl h2
    have e1 : c'.dps = c.dps := h.eq_of_length (by omega)
    rw [List.map_cons, List.map_cons, e1, dps_eq_of_sublist hs (by simp only [Centroid.flat]; omega)]

theorem Manager.mem_entries {cm : Manager F} {n : Int} {i v : Nat} (hv : v ≠ 0)
    (h : (portions (cm.centroids.map (fun c => c.lenDP)) n)[i]? = some v) : (i, v) ∈ cm.portionEntries n := by
  unfold portionEntries
  refine List.mem_map.2 ⟨(v, i), List.mem_filter.2 ⟨?_, by simpa using hv⟩, rfl⟩
  rw [List.mem_zipIdx_iff_getElem?]
  exact h

/-- Portions are even: no position that has more gets less by two than another, or less than a later one. -/
theorem Manager.portions_even (sizes : List Nat) (n : Int) {i v k w s : Nat} (hi : (portions sizes n)[i]? = some v)
    (hk : (portions sizes n)[k]? = some w) (hs : sizes[k]? = some s) : min s (if k < i then v else v - 1) ≤ w := by
  have key : ∀ (A B : List Nat) (r : Nat), sizes = A ++ B → portions sizes n = level (r + 1) A ++ level r B →
      min s (if k < i then v else v - 1) ≤ w := by
    intro A B r h1 h2
    have hiv : (v ≤ r + 1 ∧ i < A.length) ∨ v ≤ r := by
      rw [h2] at hi
      by_cases hA : i < A.length
      · rw [List.getElem?_append_left (by simpa [level] using hA)] at hi
        simp only [level, List.getElem?_map, Option.map_eq_some_iff] at hi
        obtain ⟨x, _, hx⟩ := hi
        omega
      · rw [List.getElem?_append_right (by simp [level]; omega)] at hi
        simp only [level, List.getElem?_map, Option.map_eq_some_iff] at hi
        obtain ⟨x, _, hx⟩ := hi
        omega
    rw [h2] at hk
    rw [h1] at hs
    by_cases hA : k < A.length
    · rw [List.getElem?_append_left hA] at hs
      rw [List.getElem?_append_left (by simpa [level] using hA)] at hk
      simp only [level, List.getElem?_map, hs, Option.map_some, Option.some.injEq] at hk
      split <;> omega
    · rw [List.getElem?_append_right (by omega)] at hs
      rw [List.getElem?_append_right (by simp [level]; omega)] at hk
      simp only [level, List.length_map, List.getElem?_map, hs, Option.map_some, Option.some.injEq] at hk
      split <;> omega
  by_cases h : n ≤ 0
  · exact key (sizes.take 1) (sizes.drop 1) 0 (List.take_append_drop 1 sizes).symm (portions_nonpos sizes h)
  · obtain ⟨m, rfl⟩ := Int.eq_ofNat_of_zero_le (show 0 ≤ n by omega)
    obtain ⟨A, B, r, h1, h2, _⟩ := portions_spec sizes (n := m) (by omega)
    exact key A B _ h1 h2

theorem Manager.entries_portions {ord : List (Nat × Nat) → List (Nat × Nat)} (ho : MapOrder ord) (cm : Manager F) (n : Int) :
    Spec.Portions n cm.centroids (ord (cm.portionEntries n)) := by
  have hp := ho (cm.portionEntries n)
  have hsum : ((ord (cm.portionEntries n)).map (fun e => e.2)).sum = (portions (cm.centroids.map (fun c => c.lenDP)) n).sum := by
    rw [(hp.map _).sum_eq, entries_sum]
  have hlen : (cm.centroids.map (fun c => c.lenDP)).sum = (cm.centroids.flatMap (fun c => c.dps)).length := by
    rw [List.length_flatMap]; rfl
  refine ⟨(hp.map _).nodup_iff.2 (entries_nodup cm n), fun e he => ?_, fun hn => ?_, fun hn => ⟨fun e he => ?_, fun h0 c hc => ?_⟩,
    fun e he k c hc => ?_⟩
  · obtain ⟨h1, _, c, hc, h2⟩ := entries_mem (hp.subset he : (e.1, e.2) ∈ _)
    exact ⟨c, hc, by omega, h2⟩
  · obtain ⟨m, rfl⟩ := Int.eq_ofNat_of_zero_le (show 0 ≤ n by omega)
    obtain ⟨_, _, _, _, _, h⟩ := portions_spec (cm.centroids.map (fun c => c.lenDP)) (n := m) (by omega)
    rw [hsum, h, hlen]; omega
  · obtain ⟨h1, h2, _⟩ := entries_mem (hp.subset he : (e.1, e.2) ∈ _)
    obtain ⟨i, v⟩ := e
    rw [portions_nonpos _ hn] at h2
    cases hcs : cm.centroids.map (fun c => c.lenDP) with
    | nil => rw [hcs] at h2; simp [level] at h2
    | cons s l =>
      rw [hcs] at h2
      cases i with
      | zero => simp [level] at h2; simp only at h1; rw [Prod.mk.injEq]; omega
      | succ i =>
        simp only [List.take_succ_cons, List.take_zero, List.drop_succ_cons, List.drop_zero, level, List.map_cons, List.map_nil,
          List.cons_append, List.nil_append, List.getElem?_cons_succ, List.getElem?_map, Option.map_eq_some_iff] at h2
        obtain ⟨x, _, h2⟩ := h2
        simp only at h1; omega
  · by_contra hne
    have : (0, 1) ∈ cm.portionEntries n := by
      refine Manager.mem_entries one_ne_zero ?_
      rw [portions_nonpos _ hn]
      cases hcs : cm.centroids with
      | nil => rw [hcs] at hc; simp at hc
      | cons x l =>
        rw [hcs] at hc
        simp only [List.getElem?_cons_zero, Option.some.injEq] at hc
        subst hc
        have : 1 ≤ x.dps.length := List.length_pos_iff.2 hne
        simp [level, Centroid.lenDP]; omega
    have := hp.symm.subset this
    rw [h0] at this
    simp at this
  · obtain ⟨h1, h2, _⟩ := entries_mem (hp.subset he : (e.1, e.2) ∈ _)
    have hs : (cm.centroids.map (fun c => c.lenDP))[k]? = some c.dps.length := by rw [List.getElem?_map, hc]; rfl
    have hk : k < (portions (cm.centroids.map (fun c => c.lenDP)) n).length := by
      rw [portions_length]; exact (List.getElem?_eq_some_iff.1 hs).1
    refine ⟨_, ?_, portions_even _ n h2 (List.getElem?_eq_getElem hk) hs⟩
    by_cases h0 : (portions (cm.centroids.map (fun c => c.lenDP)) n)[k] = 0
    · exact .inl h0
    · exact .inr (hp.symm.subset (Manager.mem_entries h0 (List.getElem?_eq_getElem hk)))

theorem Manager.wp_moveAll_same {tk : Nat → Int} (hm : MonoClock tk) : ∀ (cs : List (Centroid F)) (p : Nat), (∀ c ∈ cs, c.DimOK) →
    (∀ c ∈ cs, ∀ d ∈ c.dps, ∀ q, ¬ Dead (tk q) d) → Go.wp (moveAll tk cs) (fun cs' _ => List.Forall₂ Remeaned cs cs') p
  | [], p, _, _ => by
    unfold moveAll
    rw [Go.wp_pure]
    exact .nil
  | c :: cs, p, hd, hl => by
    unfold moveAll
    simp only [Go.wp_bind, Go.wp_pure]
    have hc := hd c (by simp)
    refine Go.wp_mono (Centroid.wp_moveVector hm c hc p) (fun r p1 hr => ?_)
    refine Go.wp_mono (wp_moveAll_same hm cs p1 (fun x hx => hd x (by simp [hx])) (fun x hx => hl x (by simp [hx]))) (fun cs' p2 hs => ?_)
    refine .cons ?_ hs
    obtain ⟨c1, hpg, hr⟩ := hr
    obtain ⟨rm, h1, h2⟩ := hpg.steps
    have hrm : rm = [] := by
      cases rm with
      | nil => rfl
      | cons d rm => exact absurd (h2 d (by simp)) (hl c (by simp) d (h1.perm.subset (by simp)) _)
    subst hrm
    cases h1
    obtain ⟨m1, _⟩ := vecMean_flag_of_len (L := c.vec.length) (vs := c.dps.map (fun d => d.vec)) (fun v hv => by
      obtain ⟨d, hd', rfl⟩ := List.mem_map.1 hv; exact hc d hd')
    by_cases h0 : (vecMean (c.dps.map (fun d => d.vec))).2 = true
    · rw [if_pos h0] at hr
      subst hr
      have hne := m1.1 h0
      refine ⟨rfl, fun h => absurd (by rw [h]; rfl) hne, fun _ => ?_⟩
      rw [← h0]
    · rw [if_neg h0] at hr
      subst hr
      have hne := (not_congr m1).1 h0
      rw [not_not, List.map_eq_nil_iff] at hne
      exact ⟨rfl, fun _ => rfl, fun h => absurd hne h⟩

theorem Manager.wp_moveVector_same {tk : Nat → Int} (hm : MonoClock tk) {cm : Manager F} (hw : cm.WF)
    (hl : ∀ d ∈ stored cm, ∀ q, ¬ Dead (tk q) d) (p : Nat) :
    Go.wp (cm.moveVector tk) (fun r _ => List.Forall₂ Remeaned cm.centroids r.2.centroids) p := by
  unfold Manager.moveVector
  simp only [Go.wp_bind]
  refine Go.wp_mono (Manager.wp_moveAll_same hm cm.centroids p (fun c hc => (hw.dim c hc).2)
    (fun c hc d hd => hl d (List.mem_flatMap.2 ⟨c, hc, hd⟩))) (fun cs p' h => ?_)
  rw [Go.wp_ite]
  exact ⟨fun _ => by rw [Go.wp_pure]; exact h, fun _ => by rw [Go.wp_pure]; exact h⟩

theorem Spec.Remeaned.dps_eq {cs cs' : List (Centroid F)} (h : List.Forall₂ Remeaned cs cs') :
    cs'.map (fun c => c.dps) = cs.map (fun c => c.dps) := by
  induction h with
  | nil => rfl
  | cons h _ ih => rw [List.map_cons, List.map_cons, ih, h.1]

theorem Spec.Redistributing.length {tk : Nat → Int} {receivers : List Nat} {es : List (Nat × Nat)} {h h' : List (Centroid F)}
    (hr : Redistributing tk receivers es h h') : h'.length = h.length := by
  have hp : ∀ {self : Nat} {ds : List (DataPoint F)} {h h' : List (Centroid F)}, Placing tk self receivers ds h h' → h'.length = h.length := by
    intro self ds h h' hp
    induction hp with
    | done => rfl
    | near _ _ _ _ _ _ ih => simpa using ih
    | back _ _ _ _ _ ih => simpa using ih
  induction hr with
  | done => rfl
  | next h1 _ ih =>
    obtain ⟨c, c0, out, q, q', _, _, _, _, _, h2⟩ := h1
    rw [ih, hp h2, List.length_set]

/-- C107 for `DistributeDataPoints` of a manager: own centroids, then the centroids `ext` of others; receivers are any of
them. One centroid after the other gives up its portion, furthest first, and each datapoint given up is added to the
receiver that is nearest at that moment. In the end the vectors of the own centroids are recomputed. -/
theorem C107_managerDistribute {tk : Nat → Int} (hm : MonoClock tk) {ord : List (Nat × Nat) → List (Nat × Nat)} (ho : MapOrder ord)
    {cm : Manager F} (hok : ManagerOK cm) (hk : cm.knn = knnCos) (hf : cm.kfn = kfnCos) (n : Int) (ext : List (Centroid F))
    (receivers : List Nat) (hne : receivers ≠ []) (hr : ∀ r ∈ receivers, r < cm.centroids.length + ext.length)
    (hl : ∀ d ∈ (cm.centroids ++ ext).flatMap (fun c => c.dps), ∀ q, ¬ Dead (tk q) d) (p : Nat) :
    ∃ cm' ext' p' es h, cm.distribute tk ord n ext receivers p = .ok ((cm', ext'), p') ∧ Spec.Portions n cm.centroids es ∧
      Redistributing tk receivers es (cm.centroids ++ ext) h ∧
      List.Forall₂ Remeaned (h.take cm.centroids.length) cm'.centroids ∧ ext' = h.drop cm.centroids.length := by
  have hw := hok.wf
  have hw' := Manager.wp_distribute hm ho hw n ext receivers hr p
  suffices h : Go.wp (cm.distribute tk ord n ext receivers) (fun r p' => ∃ es h, Spec.Portions n cm.centroids es ∧
      Redistributing tk receivers es (cm.centroids ++ ext) h ∧
      List.Forall₂ Remeaned (h.take cm.centroids.length) r.1.centroids ∧ r.2 = h.drop cm.centroids.length) p by
    obtain ⟨r, p', h0, es, h, h1, h2, h3, h4⟩ := Go.wp_iff.1 h
    exact ⟨r.1, r.2, p', es, h, h0, h1, h2, h3, h4⟩
  unfold Manager.distribute
  rw [Go.wp_ite]
  refine ⟨fun h0 => absurd (List.length_eq_zero_iff.1 h0) hne, fun _ => ?_⟩
  simp only [Go.wp_bind, Go.wp_pure]
  have hes : ∀ e ∈ ord (cm.portionEntries n), ∃ c, (cm.centroids ++ ext)[e.1]? = some c ∧ (c.knn = cm.knn ∧ c.kfn = cm.kfn) ∧ c.DimOK := by
    intro e he
    have hlt := Manager.ord_lt ho e he
    have hmem := List.getElem_mem hlt
    refine ⟨cm.centroids[e.1], ?_, hw.search _ hmem, (hw.dim _ hmem).2⟩
    rw [List.getElem?_append_left hlt]; exact List.getElem?_eq_getElem hlt
  refine Go.wp_mono (Go.wp_and (Manager.wp_redistribute hm receivers hne _ (cm.centroids ++ ext) p (by simpa using hr) (fun e he => ?_) hl)
    (Manager.wp_distributeLoop hm cm hw.good receivers _ (cm.centroids ++ ext) p (by simpa using hr) hes)) (fun h p1 q => ?_)
  · obtain ⟨c, hc, hs, hd⟩ := hes e he
    exact ⟨c, hc, by rw [hs.1, hk], by rw [hs.2, hf], hd⟩
  · obtain ⟨⟨q0, q1⟩, _, q2, q3, _⟩ := q
    rw [List.length_append] at q2
    have hfit : Manager.Fits cm (h.take cm.centroids.length) := by
      intro x hx
      obtain ⟨k, hk⟩ := List.mem_iff_getElem?.1 hx
      rw [List.getElem?_take] at hk
      split at hk
      · rename_i hlt
        have hg : (cm.centroids ++ ext)[k]? = some cm.centroids[k] := by
          rw [List.getElem?_append_left hlt]; exact List.getElem?_eq_getElem hlt
        have hev := q3 k _ x hg hk
        have hmem := List.getElem_mem hlt
        have hd := hw.dim _ hmem
        have hd' := hev.dim hd.2
        exact ⟨by rw [hev.search.1, hev.search.2]; exact hw.search _ hmem, hd'.1.trans hd.1, hd'.2⟩
      · simp at hk
    refine Go.wp_mono (Manager.wp_moveVector_same hm (hfit.wf hw) (fun d hd => ?_) p1) (fun r p2 t => ?_)
    · refine hl d (q1.subset ?_)
      obtain ⟨c, hc, hd⟩ := List.mem_flatMap.1 hd
      exact List.mem_flatMap.2 ⟨c, List.mem_of_mem_take hc, hd⟩
    · exact ⟨_, h, Manager.entries_portions ho cm n, q0, t, rfl⟩

/-- C107 for `DistributeDataPointsInternal`. -/
theorem C107_distributeInternal {tk : Nat → Int} (hm : MonoClock tk) {ord : List (Nat × Nat) → List (Nat × Nat)} (ho : MapOrder ord)
    {cm : Manager F} (hok : ManagerOK cm) (hk : cm.knn = knnCos) (hf : cm.kfn = kfnCos) (n : Int)
    (hl : ∀ d ∈ stored cm, ∀ q, ¬ Dead (tk q) d) (p : Nat) :
    ∃ cm' p' es h, cm.distributeInternal tk ord n p = .ok (cm', p') ∧ Spec.Portions n cm.centroids es ∧
      Redistributing tk (List.range cm.centroids.length) es cm.centroids h ∧ List.Forall₂ Remeaned h cm'.centroids := by
  by_cases h0 : cm.centroids = []
  · obtain ⟨cm', p', h1, _, _, _, h2⟩ := Go.wp_iff.1 (Manager.wp_distributeInternal hm ho hok.wf n p)
    have h2 := h2 h0
    subst h2
    refine ⟨_, p', [], _, h1, ⟨by simp, by simp, fun _ => ?_, by simp [h0], by simp⟩, .done _, by rw [h0]; exact .nil⟩
    simp [h0]; omega
  · obtain ⟨cm', ext', p', es, h, h1, h2, h3, h4, _⟩ := C107_managerDistribute hm ho hok hk hf n [] (List.range cm.centroids.length)
      (by simpa using h0) (by simp) (by rw [List.append_nil]; exact hl) p
    rw [List.append_nil] at h3
    obtain ⟨r, p2, e1, _, _, _, e2, _⟩ := Go.wp_iff.1 (Manager.wp_distribute hm ho hok.wf n [] (List.range cm.centroids.length) (by simp) p)
    rw [h1] at e1
    cases e1
    cases List.length_eq_zero_iff.1 e2
    refine ⟨cm', p', es, h, ?_, h2, h3, by rwa [List.take_of_length_le (by rw [h3.length])] at h4⟩
    unfold Manager.distributeInternal
    have : Go.wp (do let r ← cm.distribute tk ord n [] (List.range cm.centroids.length); pure r.1) (fun a b => a = cm' ∧ b = p') p := by
      rw [Go.wp_bind]
      exact Go.wp_iff.2 ⟨_, _, h1, by rw [Go.wp_pure]; exact ⟨rfl, rfl⟩⟩
    obtain ⟨a, b, h, rfl, rfl⟩ := Go.wp_iff.1 this
    exact h

/-- C107 for `DistributeDataPoints` of a centroid. -/
theorem C107_distribute {tk : Nat → Int} (hm : MonoClock tk) (h : List (Centroid F)) (self : Nat) (c : Centroid F)
    (hc : h[self]? = some c) (hk : c.knn = knnCos) (hf : c.kfn = kfnCos) (hd : ∀ d ∈ c.dps, d.vec.length = c.vec.length) (n : Nat)
    (receivers : List Nat) (hne : receivers ≠ []) (hr : ∀ r ∈ receivers, r < h.length) (hl : ∀ d ∈ c.dps, ∀ q, ¬ Dead (tk q) d) (p : Nat) :
    ∃ h' p', Centroid.distribute tk h self n receivers p = .ok (h', p') ∧ Distributed tk receivers self n h h' := by
  obtain ⟨h', p', h0, h1⟩ := Go.wp_iff.1 (Centroid.wp_distribute_place hm h self c hc hk hf hd n receivers hne hr hl p)
  exact ⟨h', p', h0, h1⟩

/-! ### AddDataPoint -/

theorem Manager.wp_addDataPoint_place {tk : Nat → Int} (hm : MonoClock tk) {cm : Manager F} (hw : cm.WF) (hs : cm.knn = knnCos)
    (d : DataPoint F) (hl : ∀ e ∈ d :: stored cm, ∀ q, ¬ Dead (tk q) e) (p : Nat) :
    Go.wp (cm.addDataPoint tk d) (fun r _ =>
      (cm.centroids = [] → r.1 = true ∧ r.2.centroids.map (fun c => c.dps) = [[d]]) ∧
      (r.1 = false → Nearest d.vec (cm.centroids.map (fun c => c.vec)) none) ∧
      (cm.centroids ≠ [] → r.1 = true → ∃ j l, Nearest d.vec (cm.centroids.map (fun c => c.vec)) (some j) ∧
        (cm.centroids.map (fun c => c.dps))[j]? = some l ∧ r.2.centroids.map (fun c => c.dps) =
          if 2 ≤ cm.threshold ∧ cm.threshold ≤ (l ++ [d]).length then
            (cm.centroids.map (fun c => c.dps)).set j ((l ++ [d]).drop (cm.threshold / 2).toNat) ++ [(l ++ [d]).take (cm.threshold / 2).toNat]
          else (cm.centroids.map (fun c => c.dps)).set j (l ++ [d]))) p := by
  have hnd : ∀ q, ¬ Dead (tk q) d := hl d (by simp)
  unfold addDataPoint
  simp only [Go.wp_bind, DataPoint.wp_expired, Go.wp_ite]
  refine ⟨fun he => absurd ((expiredAt_iff _ _).1 he) (hnd _), fun he => ⟨fun h0 => ?_, fun h0 => ?_⟩⟩
  · have h0' : cm.centroids = [] := List.length_eq_zero_iff.1 h0
    unfold newCentroid Centroid.new
    simp only [Go.wp_bind, Go.wp_checkMake, Go.wp_pure, Centroid.wp_addDataPoint]
    refine ⟨hw.cap, ?_⟩
    rw [if_neg (by simp), if_neg (by rw [expiredAt_iff]; exact hnd _)]
    rw [h0']
    exact ⟨fun _ => ⟨trivial, rfl⟩, by simp, fun h => absurd rfl h⟩
  · have hne : cm.centroids ≠ [] := fun h => h0 (by simp [h])
    obtain ⟨is, h1, h2⟩ := knnBrute_kbest d.vec cosineSimilarity false 1 (cm.centroids.map (fun c => c.vec))
    have hn := nearest_of_brute h1
    simp only [Go.wp_lift]
    refine ⟨is, by rw [hs]; exact h1, ?_⟩
    cases is with
    | nil =>
      simp only [Go.wp_pure]
      exact ⟨fun h => absurd h hne, fun _ => hn, fun _ => by simp⟩
    | cons j js =>
      obtain ⟨s, ⟨u, hu, hus, _⟩, _⟩ := hn
      have hj : j < cm.centroids.length := by simpa using (List.getElem?_eq_some_iff.1 hu).1
      simp only [Go.wp_bind, Go.wp_idx]
      have hc : cm.centroids[j]? = some cm.centroids[j] := List.getElem?_eq_getElem hj
      have hset : cm.centroids.set j cm.centroids[j] = cm.centroids := List.set_getElem_self hj
      generalize cm.centroids[j] = c at hc hset
      have hl0 : d.vec.length = c.vec.length := by
        rw [List.getElem?_map, hc] at hu
        cases hu
        by_contra hne
        rw [(C04_cos_fails_iff _ _).2 hne] at hus; cases hus
      refine ⟨c, hc, ?_⟩
      refine Go.wp_iff.2 ⟨_, _, Centroid.add_ok hl0 (hnd (p + 1)), ?_⟩
      simp only [Bool.not_true, Bool.false_eq_true, if_false, Go.wp_ite]
      have hlen : (c.addRaw d).lenDP = c.dps.length + 1 := by simp [Centroid.lenDP, Centroid.addRaw]
      have hadd : (c.addRaw d).dps = c.dps ++ [d] := rfl
      have hupd : (cm.upd j c.vec (c.addRaw d)).centroids.map (fun c => c.dps) = (cm.centroids.map (fun c => c.dps)).set j (c.dps ++ [d]) := by
        rw [upd_centroids, List.map_set, hadd]
      have hget' : (cm.centroids.map (fun c => c.dps))[j]? = some c.dps := by rw [List.getElem?_map, hc]; rfl
      rw [hlen]
      change (cm.threshold ≤ _ → _) ∧ (¬ cm.threshold ≤ _ → _)
      refine ⟨fun ht => ?_, fun ht => ?_⟩
      · change Go.wp (do
          let s ← (cm.upd j c.vec (c.addRaw d)).splitCentroid tk j (cm.threshold.tdiv 2)
          match s.1 with
          | some nc => pure (true, { s.2 with centroids := s.2.centroids ++ [nc] })
          | none => pure (true, s.2)) _ _
        have hget : (cm.upd j c.vec (c.addRaw d)).centroids[j]? = some (c.addRaw d) := by
          rw [upd_centroids, List.getElem?_set_self hj]
        have hdim := (hw.dim c (List.mem_of_getElem? hc)).2
        have hwu : (cm.upd j c.vec (c.addRaw d)).WF :=
          hw.upd hc ⟨rfl, rfl⟩ ⟨Centroid.addRaw_vec_length hl0, Centroid.addRaw_dimOK hl0 hdim⟩
        by_cases ht2 : 2 ≤ cm.threshold
        · have hdiv : 0 < cm.threshold.tdiv 2 := by
            rw [Int.tdiv_eq_ediv_of_nonneg (by omega)]; omega
          rw [Go.wp_bind]
          refine Go.wp_mono (wp_splitCentroid hwu hget hdiv (p + 1 + 1)) (fun s p' hs => ?_)
          obtain ⟨c', nc, hs1, hs2⟩ := hs
          simp only [hs1, Go.wp_pure]
          refine ⟨fun h => absurd h hne, by simp, fun _ _ => ⟨j, c.dps, nearest_of_brute h1, hget', ?_⟩⟩
          obtain ⟨pre, _, e2, e3, _, e5, e6, _⟩ := hs2.shape
          have hpl : ∀ e ∈ pre, ∀ q, ¬ Dead (tk q) e := fun e hx q => by
            have hx' : e ∈ c.dps ++ [d] := by rw [← hadd, e2]; exact List.mem_append_left _ hx
            rcases List.mem_append.1 hx' with h | h
            · exact hl e (List.mem_cons_of_mem _ (List.mem_flatMap.2 ⟨c, List.mem_of_getElem? hc, h⟩)) q
            · rw [List.mem_singleton.1 h]; exact hnd q
          rw [liveReads_id pre _ hpl] at e3 e5 e6
          rw [liveReads_id pre _ hpl] at e3
          have hcl : (c.dps ++ [d]).length = pre.length + c'.dps.length := by rw [← hadd, e2, List.length_append]
          have hpn : pre.length = (cm.threshold / 2).toNat := by
            rw [Int.tdiv_eq_ediv_of_nonneg (by omega)] at e5 e6
            by_contra hne
            have : c'.dps = [] := e6 (by omega)
            rw [this] at hcl
            simp only [List.length_append, List.length_singleton, List.length_nil] at hcl
            omega
          rw [if_pos ⟨ht2, by simpa using ht⟩, hs2.eq, ← hadd, e2, ← hpn, List.drop_left, List.take_left]
          simp only [List.map_append, List.map_set, upd_centroids, List.map_cons, List.map_nil, e3, List.set_set]
        · have hdiv : cm.threshold.tdiv 2 ≤ 0 := by
            rcases Int.lt_or_le cm.threshold 0 with h | h
            · have h1 := Int.neg_tdiv cm.threshold 2
              have h2 := Int.tdiv_nonneg (a := -cm.threshold) (b := 2) (by omega) (by omega)
              omega
            · rw [Int.tdiv_eq_ediv_of_nonneg h]; omega
          rw [splitCentroid_none hdiv]
          simp only [Go.wp_bind, Go.wp_pure]
          refine ⟨fun h => absurd h hne, by simp, fun _ _ => ⟨j, c.dps, nearest_of_brute h1, hget', ?_⟩⟩
          rw [if_neg (fun h => ht2 h.1), hupd]
      · rw [Go.wp_pure]
        refine ⟨fun h => absurd h hne, by simp, fun _ _ => ⟨j, c.dps, nearest_of_brute h1, hget', ?_⟩⟩
        rw [if_neg (fun h => ht (by simpa using h.2))]
        exact hupd

/-- C107 for `AddDataPoint` of a manager (nothing expires meanwhile). The first datapoint gets a centroid of its own. Any
other is refused only if it can be compared with no centroid; else it is appended to a nearest one, and if that one then
has as many as the threshold, the first half of a threshold of its datapoints move to a new centroid. -/
theorem C107_addDataPoint {tk : Nat → Int} (hm : MonoClock tk) {cm : Manager F} (hok : ManagerOK cm) (hs : cm.knn = knnCos)
    (d : DataPoint F) (hl : ∀ e ∈ d :: stored cm, ∀ q, ¬ Dead (tk q) e) (p : Nat) :
    ∃ b cm' p', cm.addDataPoint tk d p = .ok ((b, cm'), p') ∧
      (cm.centroids = [] → b = true ∧ cm'.centroids.map (fun c => c.dps) = [[d]]) ∧
      (b = false → Nearest d.vec (cm.centroids.map (fun c => c.vec)) none) ∧
      (cm.centroids ≠ [] → b = true → ∃ j l, Nearest d.vec (cm.centroids.map (fun c => c.vec)) (some j) ∧
        (cm.centroids.map (fun c => c.dps))[j]? = some l ∧ cm'.centroids.map (fun c => c.dps) =
          if 2 ≤ cm.threshold ∧ cm.threshold ≤ (l ++ [d]).length then
            (cm.centroids.map (fun c => c.dps)).set j ((l ++ [d]).drop (cm.threshold / 2).toNat) ++ [(l ++ [d]).take (cm.threshold / 2).toNat]
          else (cm.centroids.map (fun c => c.dps)).set j (l ++ [d])) := by
  obtain ⟨r, p', h0, h⟩ := Go.wp_iff.1 (Manager.wp_addDataPoint_place hm hok.wf hs d hl p)
  exact ⟨r.1, r.2, p', h0, h⟩

/-! ### C108 -/

theorem subperm_meet {α : Type} {a b c : List α} (h1 : a.Subperm c) (h2 : b.Subperm c) :
    ∃ d : List α, d.Subperm a ∧ d.Subperm b ∧ a.length + b.length ≤ d.length + c.length := by
  classical
  have e1 : (a : Multiset α) ≤ c := h1
  have e2 : (b : Multiset α) ≤ c := h2
  obtain ⟨d, hd⟩ : ∃ d : List α, (d : Multiset α) = (a : Multiset α) ∩ (b : Multiset α) :=
    ⟨((a : Multiset α) ∩ (b : Multiset α)).toList, Multiset.coe_toList _⟩
  refine ⟨d, ?_, ?_, ?_⟩
  · exact (show (d : Multiset α) ≤ a by rw [hd]; exact Multiset.inter_le_left)
  · exact (show (d : Multiset α) ≤ b by rw [hd]; exact Multiset.inter_le_right)
  · have h := congrArg Multiset.card (Multiset.union_add_inter (a : Multiset α) b)
    have hu := Multiset.card_le_card (Multiset.union_le e1 e2)
    rw [← hd] at h
    simp only [Multiset.card_add, Multiset.coe_card] at h hu
    omega

theorem subperms_meet {α : Type} : ∀ {a b c : List (List α)}, List.Forall₂ List.Subperm a c → List.Forall₂ List.Subperm b c →
    ∃ d, List.Forall₂ List.Subperm d a ∧ List.Forall₂ List.Subperm d b ∧ a.flatten.length + b.flatten.length ≤ d.flatten.length + c.flatten.length
  | _, _, _, .nil, .nil => ⟨[], .nil, .nil, by simp⟩
  | _, _, _, .cons h1 t1, .cons h2 t2 => by
    obtain ⟨d, e1, e2, e3⟩ := subperm_meet h1 h2
    obtain ⟨ds, f1, f2, f3⟩ := subperms_meet t1 t2
    refine ⟨d :: ds, .cons e1 f1, .cons e2 f2, ?_⟩
    simp only [List.flatten_cons, List.length_append]
    omega

theorem subperms_trans {α : Type} {a b c : List (List α)} (h1 : List.Forall₂ List.Subperm a b) (h2 : List.Forall₂ List.Subperm b c) :
    List.Forall₂ List.Subperm a c := by
  induction h1 generalizing c with
  | nil => cases h2; exact .nil
  | cons h _ ih => cases h2 with | cons h' t => exact .cons (h.trans h') (ih t)

theorem Spec.AllButStay.trans {n m : Nat} {a b c : List (List (DataPoint F))} (h1 : AllButStay n a b) (h2 : AllButStay m b c) :
    AllButStay (n + m) a c := by
  obtain ⟨k1, e1, e2, e3⟩ := h1
  obtain ⟨k2, f1, f2, f3⟩ := h2
  obtain ⟨d, g1, g2, g3⟩ := subperms_meet e2 f1
  exact ⟨d, subperms_trans g1 e1, subperms_trans g2 f2, by omega⟩

theorem Spec.AllButStay.refl (a : List (List (DataPoint F))) : AllButStay 0 a a := by
  have : List.Forall₂ List.Subperm a a := by
    induction a with
    | nil => exact .nil
    | cons x xs ih => exact .cons (List.Subperm.refl x) ih
  exact ⟨a, this, this, by omega⟩

theorem Centroid.add_true {tk : Nat → Int} {c c' : Centroid F} {d : DataPoint F} {p p' : Nat}
    (h : c.addDataPoint tk d p = .ok ((true, c'), p')) : c' = c.addRaw d := by
  have : Go.wp (c.addDataPoint tk d) (fun r p' => r.1 = true → r.2 = c.addRaw d) p := by
    rw [Centroid.wp_addDataPoint]
    split
    · simp
    · split <;> simp
  obtain ⟨r, q, e1, e2⟩ := Go.wp_iff.1 this
  rw [h] at e1
  cases e1
  exact e2 rfl

theorem forall₂_set {α β : Type} {R : α → β → Prop} : ∀ {a : List α} {b : List β}, a.length = b.length →
    (∀ (k : Nat) (x : α) (y : β), a[k]? = some x → b[k]? = some y → R x y) → List.Forall₂ R a b
  | [], [], _, _ => .nil
  | x :: a, y :: b, hl, h => .cons (h 0 x y rfl rfl) (forall₂_set (by simpa using hl) (fun k u v hu hv => h (k + 1) u v hu hv))

theorem subperms_set {h : List (Centroid F)} {i : Nat} {x x' : Centroid F} (hx : h[i]? = some x) (hs : x.dps.Subperm x'.dps) :
    List.Forall₂ List.Subperm (h.map (fun c => c.dps)) ((h.set i x').map (fun c => c.dps)) := by
  refine forall₂_set (by simp) (fun k u v hu hv => ?_)
  rw [List.getElem?_map, Option.map_eq_some_iff] at hu hv
  obtain ⟨a, ha, rfl⟩ := hu
  obtain ⟨b, hb, rfl⟩ := hv
  rcases eq_or_ne i k with rfl | hne
  · rw [List.getElem?_set_self (List.getElem?_eq_some_iff.1 hx).1] at hb
    rw [hx] at ha
    cases ha; cases hb; exact hs
  · rw [List.getElem?_set_ne hne, ha] at hb
    cases hb; exact List.Subperm.refl _

theorem subperms_refl (a : List (List (DataPoint F))) : List.Forall₂ List.Subperm a a := by
  induction a with
  | nil => exact .nil
  | cons x xs ih => exact .cons (List.Subperm.refl x) ih

/-- Placing only adds. -/
theorem Spec.Placing.adds {tk : Nat → Int} {self : Nat} {receivers : List Nat} {ds : List (DataPoint F)} {h h' : List (Centroid F)}
    (hp : Placing tk self receivers ds h h') : List.Forall₂ List.Subperm (h.map (fun c => c.dps)) (h'.map (fun c => c.dps)) := by
  have key : ∀ {x x' : Centroid F} {d : DataPoint F} {q q' : Nat}, x.addDataPoint tk d q = .ok ((true, x'), q') → x.dps.Subperm x'.dps := by
    intro x x' d q q' h
    rw [Centroid.add_true h]
    exact (List.sublist_append_left x.dps [d]).subperm
  induction hp with
  | done => exact subperms_refl _
  | near _ _ _ hx ha _ ih => exact subperms_trans (subperms_set hx (key ha)) ih
  | back _ _ hx ha _ ih => exact subperms_trans (subperms_set hx (key ha)) ih

theorem Spec.Distributed.stay {tk : Nat → Int} {receivers : List Nat} {self n : Nat} {h h' : List (Centroid F)}
    (hd : Distributed tk receivers self n h h') : AllButStay n (h.map (fun c => c.dps)) (h'.map (fun c => c.dps)) := by
  obtain ⟨c, c0, out, q, q', hc, _, hp, _, hlen, hpl⟩ := hd
  have hlt := (List.getElem?_eq_some_iff.1 hc).1
  have hback : (h.set self c0).set self c = h := by
    rw [List.set_set]
    refine List.ext_getElem? (fun k => ?_)
    rcases eq_or_ne self k with rfl | hne
    · rw [List.getElem?_set_self hlt, hc]
    · rw [List.getElem?_set_ne hne]
  refine ⟨(h.set self c0).map (fun c => c.dps), ?_, hpl.adds, ?_⟩
  · have := subperms_set (h := h.set self c0) (x' := c) (List.getElem?_set_self hlt)
      (((List.sublist_append_right out c0.dps).subperm).trans hp.subperm)
    rwa [hback] at this
  · have := Centroid.flat_set_length hc c0
    have h1 := hp.length_eq
    rw [List.length_append] at h1
    simp only [Centroid.flat, List.flatMap_def] at this
    omega

theorem Spec.Redistributing.stay {tk : Nat → Int} {receivers : List Nat} {es : List (Nat × Nat)} {h h' : List (Centroid F)}
    (hr : Redistributing tk receivers es h h') :
    AllButStay (es.map (fun e => e.2)).sum (h.map (fun c => c.dps)) (h'.map (fun c => c.dps)) := by
  induction hr with
  | done => exact AllButStay.refl _
  | next h1 _ ih => simpa using h1.stay.trans ih

/-- What holds of C108: `DistributeDataPointsInternal(n)` moves at most `n` datapoints (one, if `n ≤ 0`). Missing: that it
moves none if all are at their nearest centroid. -/
theorem C108_partial {tk : Nat → Int} (hm : MonoClock tk) {ord : List (Nat × Nat) → List (Nat × Nat)} (ho : MapOrder ord)
    {cm : Manager F} (hok : ManagerOK cm) (hk : cm.knn = knnCos) (hf : cm.kfn = kfnCos) (n : Int)
    (hl : ∀ d ∈ stored cm, ∀ q, ¬ Dead (tk q) d) (p : Nat) :
    ∃ cm' p', cm.distributeInternal tk ord n p = .ok (cm', p') ∧
      AllButStay (max n 1).toNat (cm.centroids.map (fun c => c.dps)) (cm'.centroids.map (fun c => c.dps)) := by
  obtain ⟨cm', p', es, h, h1, ⟨hnd, _, h2, h3, _⟩, h4, h5⟩ := C107_distributeInternal hm ho hok hk hf n hl p
  refine ⟨cm', p', h1, ?_⟩
  obtain ⟨k, e1, e2, e3⟩ := h4.stay
  rw [Remeaned.dps_eq h5]
  refine ⟨k, e1, e2, e3.trans ?_⟩
  have : (es.map (fun e => e.2)).sum ≤ (max n 1).toNat := by
    rcases Int.lt_or_le n 1 with h | h
    · have h3 := (h3 (by omega)).1
      match es, hnd, h3 with
      | [], _, _ => simp
      | [e], _, h3 => rw [h3 e (by simp)]; simp
      | e :: e' :: l, hnd, h3 => rw [h3 e (by simp), h3 e' (by simp)] at hnd; simp at hnd
    · have := h2 h; omega
  omega

theorem atNearest_of_search {cs : List (Centroid F)}
    (h : ∀ q ∈ cs.zipIdx, ∀ d ∈ q.1.dps, knnCos d.vec (cs.map (fun c => c.vec)) 1 = .ok [q.2]) : AtNearest cs := by
  intro k c d hc hd
  exact nearest_of_search (h (c, k) (List.mem_zipIdx_iff_getElem?.2 hc) d hd)

namespace PlaceExample

def pt (x y : Int) : DataPoint F64 := ⟨[.ofInt x, .ofInt y], [], 0, false⟩

/-- Three datapoints added to an empty manager with threshold 3: the third addition splits the centroid. -/
def three : List (ManagerCall F64) := [.add (pt (-1) 4), .add (pt 1 1), .add (pt 3 (-1))]

/-- The datapoints of every centroid. -/
def lists (m : Manager F64) : List (List (DataPoint F64)) := m.centroids.map (fun c => c.dps)

/-- The vectors of the centroids. -/
def cvecs (m : Manager F64) : List (List F64) := m.centroids.map (fun c => c.vec)

end PlaceExample
open PlaceExample

/-- C108 is false of the code: every datapoint is at its nearest centroid, and `DistributeDataPointsInternal(2)` moves one
of them. It is taken out before it is compared, which turns the vector of its centroid away from it. -/
theorem C108_refuted : ∃ (w : ManagerWorld F64) (m : Manager F64) (p p' : Nat),
    runManager (fun _ => 0) [.ofInt 0, .ofInt 0] 10 3 knnCos kfnCos three 0 = .ok (w, p) ∧
    lists w.cm = [[pt 1 1, pt 3 (-1)], [pt (-1) 4]] ∧ cvecs w.cm = [[.ofInt 2, .ofInt 0], [.ofInt (-1), .ofInt 4]] ∧
    AtNearest w.cm.centroids ∧
    w.cm.distributeInternal (fun _ => 0) id 2 p = .ok (m, p') ∧ lists m = [[pt 3 (-1)], [pt (-1) 4, pt 1 1]] := by
  have h : (runManager (fun _ => 0) [F64.ofInt 0, .ofInt 0] 10 3 knnCos kfnCos three 0).map (fun r => decide (
      lists r.1.cm = [[pt 1 1, pt 3 (-1)], [pt (-1) 4]] ∧ cvecs r.1.cm = [[.ofInt 2, .ofInt 0], [.ofInt (-1), .ofInt 4]] ∧
      (∀ q ∈ r.1.cm.centroids.zipIdx, ∀ d ∈ q.1.dps, knnCos d.vec (r.1.cm.centroids.map (fun c => c.vec)) 1 = .ok [q.2]) ∧
      (r.1.cm.distributeInternal (fun _ => 0) id 2 r.2).map (fun s => lists s.1) = .ok [[pt 3 (-1)], [pt (-1) 4, pt 1 1]])) = .ok true := by
    decide +kernel
  cases hr : runManager (fun _ => 0) [F64.ofInt 0, .ofInt 0] 10 3 knnCos kfnCos three 0 with
  | error e => rw [hr] at h; cases h
  | ok r =>
    rw [hr] at h
    obtain ⟨h1, h2, h3, h4⟩ := of_decide_eq_true (Except.ok.inj h)
    cases hs : r.1.cm.distributeInternal (fun _ => 0) id 2 r.2 with
    | error e => rw [hs] at h4; cases h4
    | ok s =>
      rw [hs] at h4
      exact ⟨r.1, s.1, r.2, s.2, rfl, h1, h2, atNearest_of_search h3, hs, Except.ok.inj h4⟩

/-! ### Examples -/

/-- C107: (1,1) is nearer to (-1,4) than to (3,-1), but nearer to (2,0) than to (-1,4); with nothing of its length there is no nearest. -/
example : Nearest [F64.ofInt 1, .ofInt 1] [[.ofInt 3, .ofInt (-1)], [.ofInt (-1), .ofInt 4]] (some 1) ∧
    Nearest [F64.ofInt 1, .ofInt 1] [[.ofInt 2, .ofInt 0], [.ofInt (-1), .ofInt 4]] (some 0) :=
  ⟨nearest_of_search (by decide +kernel), nearest_of_search (by decide +kernel)⟩

example : Nearest [F64.ofInt 1, .ofInt 1] [[.ofInt 3]] none := by
  rintro i t ⟨v, hv, hs, _⟩
  have : v = [F64.ofInt 3] := by simpa using List.mem_of_getElem? hv
  rw [this, (C04_cos_fails_iff _ _).2 (by simp)] at hs
  cases hs

/-- C107, `AddDataPoint`: (2,1) goes to the first centroid, which then has three and is split; (-1,5) goes to the second; a vector of
another length is refused. -/
example : (∃ w p', runManager (fun _ => 0) [.ofInt 0, .ofInt 0] 10 3 knnCos kfnCos (three ++ [.add (pt 2 1)]) 0 = .ok (w, p') ∧
      lists w.cm = [[pt 3 (-1), pt 2 1], [pt (-1) 4], [pt 1 1]]) ∧
    (∃ w p', runManager (fun _ => 0) [.ofInt 0, .ofInt 0] 10 3 knnCos kfnCos (three ++ [.add (pt (-1) 5)]) 0 = .ok (w, p') ∧
      lists w.cm = [[pt 1 1, pt 3 (-1)], [pt (-1) 4, pt (-1) 5]]) ∧
    ∃ w p', runManager (fun _ => 0) [.ofInt 0, .ofInt 0] 10 3 knnCos kfnCos (three ++ [.add ⟨[.ofInt 1], [], 0, false⟩]) 0 = .ok (w, p') ∧
      lists w.cm = [[pt 1 1, pt 3 (-1)], [pt (-1) 4]] :=
  ⟨exists_of_run (f := fun w : ManagerWorld F64 => lists w.cm) (by decide +kernel),
    exists_of_run (f := fun w : ManagerWorld F64 => lists w.cm) (by decide +kernel),
    exists_of_run (f := fun w : ManagerWorld F64 => lists w.cm) (by decide +kernel)⟩

/-- C107, `DistributeDataPoints` of a centroid with (1,1), (3,-1) and two other receivers: the furthest, (1,1), goes to (2,3). -/
def PlaceExample.heap : List (Centroid F64) :=
  [{ vec := [.ofInt 2, .ofInt 0], dps := [pt 1 1, pt 3 (-1)], knn := knnCos, kfn := kfnCos },
   { vec := [.ofInt (-1), .ofInt 4], dps := [pt (-1) 4], knn := knnCos, kfn := kfnCos },
   { vec := [.ofInt 2, .ofInt 3], dps := [], knn := knnCos, kfn := kfnCos }]

example : ∃ h' p', Centroid.distribute (fun _ => 0) heap 0 1 [0, 1, 2] 0 = .ok (h', p') ∧ Distributed (fun _ => 0) [0, 1, 2] 0 1 heap h' :=
  C107_distribute (fun _ _ _ => Int.le_refl _) heap 0 _ rfl rfl rfl (by simp [pt]) 1 [0, 1, 2] (by simp) (by simp [heap])
    (by simp [pt, Dead]) 0

example : ∃ h' p', Centroid.distribute (fun _ => 0) heap 0 1 [0, 1, 2] 0 = .ok (h', p') ∧
    h'.map (fun c => c.dps) = [[pt 3 (-1)], [pt (-1) 4], [pt 1 1]] :=
  exists_of_run (f := fun h : List (Centroid F64) => h.map (fun c => c.dps)) (by decide +kernel)

/-- C108: of three datapoints, all but one stay. -/
example : AllButStay 1 [[pt 1 1, pt 3 (-1)], [pt (-1) 4]] [[pt 3 (-1)], [pt (-1) 4, pt 1 1]] :=
  ⟨[[pt 3 (-1)], [pt (-1) 4]],
    .cons (List.Sublist.subperm (.cons _ (.refl _))) (.cons (List.Subperm.refl _) .nil),
    .cons (List.Subperm.refl _) (.cons (List.Sublist.subperm (List.sublist_append_left [pt (-1) 4] [pt 1 1])) .nil), by simp⟩

end Trypo
