import Verif.Props.Place
import Verif.Spec.Merge
import Verif.Proofs.KernelRfl

/-!
# C112: what merging does
-/

set_option linter.unusedSectionVars false
set_option linter.unusedVariables false

namespace Trypo
open GoFloat Spec

variable {F : Type} [GoFloat F] [LawfulCmp F]

namespace Manager
open Centroid (flat CallOK DimOK Evolves RmSteps)

/-- The centroids at places that are not marked. -/
def slots (marks : List Nat) (cs : List (Centroid F)) : List (Option (Centroid F)) :=
  cs.mapIdx (fun k c => if k ∈ marks then none else some c)

theorem slots_get (marks : List Nat) (cs : List (Centroid F)) (k : Nat) :
    (slots marks cs)[k]? = cs[k]?.map (fun c => if k ∈ marks then none else some c) := by
  unfold slots
  rw [List.getElem?_mapIdx]

theorem slots_some {marks : List Nat} {cs : List (Centroid F)} {k : Nat} {c : Centroid F} :
    (slots marks cs)[k]? = some (some c) ↔ cs[k]? = some c ∧ k ∉ marks := by
  rw [slots_get]
  cases h : cs[k]? with
  | none => simp
  | some x => by_cases hk : k ∈ marks <;> simp [hk]

theorem reduceOption_eraseIdx {α : Type} : ∀ (s : List (Option α)) (j : Nat), s[j]? = some none →
    (s.eraseIdx j).reduceOption = s.reduceOption
  | [], j, h => by simp at h
  | a :: s, 0, h => by
    simp only [List.getElem?_cons_zero, Option.some.injEq] at h
    subst h
    simp
  | a :: s, j + 1, h => by
    simp only [List.getElem?_cons_succ] at h
    have := reduceOption_eraseIdx s j h
    cases a with
    | none => simpa using this
    | some x => simpa using this

theorem slots_delete {is : List Nat} {j : Nat} {cs : List (Centroid F)} (hj : j < cs.length) (hlt : ∀ i ∈ is, i < j) :
    (slots is (cs.eraseIdx j)).reduceOption = (slots (j :: is) cs).reduceOption := by
  have h1 : (slots (j :: is) cs)[j]? = some none := by
    rw [slots_get, List.getElem?_eq_getElem hj]; simp
  rw [← reduceOption_eraseIdx _ _ h1]
  congr 1
  refine List.ext_getElem? (fun k => ?_)
  rw [slots_get, List.getElem?_eraseIdx, List.getElem?_eraseIdx]
  by_cases hk : k < j
  · rw [if_pos hk, if_pos hk, slots_get]
    have : k ≠ j := by omega
    simp [this]
  · rw [if_neg hk, if_neg hk, slots_get]
    have e1 : k ∉ is := fun h => hk (hlt k h)
    have e2 : k + 1 ∉ is := fun h => by have := hlt _ h; omega
    have e3 : k + 1 ≠ j := by omega
    simp [e1, e2, e3]

theorem wp_deleteAll_exact : ∀ (is : List Nat) (cm : Manager F) (p : Nat), is.Pairwise (· > ·) →
    (∀ i ∈ is, i < cm.centroids.length) →
    Go.wp (deleteAll is cm) (fun cm' _ => cm'.centroids = (slots is cm.centroids).reduceOption) p
  | [], cm, p, _, _ => by
    unfold deleteAll
    rw [Go.wp_pure]
    have : slots [] cm.centroids = cm.centroids.map some := by
      refine List.ext_getElem? (fun k => ?_)
      rw [slots_get]
      simp
    rw [this]
    simp [List.reduceOption]
  | j :: js, cm, p, hp, hl => by
    rw [List.pairwise_cons] at hp
    have hj : j < cm.centroids.length := hl j (by simp)
    unfold deleteAll deleteAt
    simp only [Go.wp_bind, Go.wp_idx, Go.wp_pure]
    refine ⟨cm.centroids[j], List.getElem?_eq_getElem hj, ?_⟩
    refine Go.wp_mono (wp_deleteAll_exact js _ p hp.2 (fun i hi => ?_)) (fun cm' _ h => ?_)
    · have := hp.1 i hi
      show i < (cm.centroids.eraseIdx j).length
      rw [List.length_eraseIdx_of_lt hj]
      omega
    · rw [h]
      exact slots_delete hj (fun i hi => hp.1 i hi)

/-- All vectors have the length `D`, and no datapoint ever expires. -/
def Lasting (tk : Nat → Int) (D : Nat) (cs : List (Centroid F)) : Prop :=
  ∀ c ∈ cs, c.vec.length = D ∧ c.DimOK ∧ ∀ d ∈ c.dps, ∀ q, ¬ Dead (tk q) d

theorem wp_drainWhole_exact {tk : Nat → Int} (c : Centroid F) (hd : c.DimOK) (hl : ∀ d ∈ c.dps, ∀ q, ¬ Dead (tk q) d) (p : Nat) :
    Go.wp (c.drainUnordered tk c.lenDP) (fun r _ => r.1 = c.dps ∧ r.2.dps = [] ∧ r.2.vec.length = c.vec.length) p := by
  refine Go.wp_mono (Centroid.wp_drainUnordered tk c (n := c.lenDP) (by omega) p) (fun r p' hr => ?_)
  obtain ⟨pre, h1, h2, h3, h4, h5, h6, h7⟩ := hr
  have e : r.1 = pre := by
    rw [h3]
    exact liveReads_id pre p (fun d hd' => hl d (by rw [h2]; exact List.mem_append_left _ hd'))
  have hnil : r.2.dps = [] := by
    unfold Centroid.lenDP at h5 h6
    rcases Nat.lt_or_ge r.1.length c.dps.length with h | h
    · exact h6 (by omega)
    · have e1 := congrArg List.length h2
      rw [e] at h
      rw [List.length_append] at e1
      exact List.length_eq_zero_iff.1 (by omega)
  rw [hnil, List.append_nil] at h2
  exact ⟨e.trans h2.symm, hnil, (h1.dim hd).1⟩

theorem wp_addAll_exact {tk : Nat → Int} : ∀ (ds : List (DataPoint F)) (c : Centroid F) (p : Nat), c.DimOK →
    (∀ d ∈ ds, d.vec.length = c.vec.length) → (∀ d ∈ ds, ∀ q, ¬ Dead (tk q) d) →
    Go.wp (addAll tk ds c) (fun c' _ => Adding tk ds c c' ∧ c'.dps = c.dps ++ ds ∧ c'.vec.length = c.vec.length) p
  | [], c, p, _, _, _ => by
    unfold addAll
    rw [Go.wp_pure]
    exact ⟨.done c, by simp, rfl⟩
  | d :: ds, c, p, hd, hl, hq => by
    unfold addAll
    have hdl := hl d (by simp)
    simp only [Go.wp_bind]
    refine Go.wp_iff.2 ⟨_, _, Centroid.add_ok hdl (hq d (by simp) p), ?_⟩
    have hv : (c.addRaw d).vec.length = c.vec.length := Centroid.addRaw_vec_length hdl
    have hdps : (c.addRaw d).dps = c.dps ++ [d] := rfl
    refine Go.wp_mono (wp_addAll_exact ds (c.addRaw d) (p + 1) ?_ (fun e he => by rw [hv]; exact hl e (by simp [he]))
      (fun e he => hq e (by simp [he]))) (fun c' p' h => ?_)
    · intro e he
      rw [hdps] at he
      rw [hv]
      rcases List.mem_append.1 he with he | he
      · exact hd e he
      · rw [List.mem_singleton.1 he]; exact hdl
    · obtain ⟨h1, h2, h3⟩ := h
      refine ⟨.next (Centroid.add_ok hdl (hq d (by simp) p)) h1, ?_, h3.trans hv⟩
      rw [h2, hdps]; simp

theorem absorbing_congr {tk : Nat → Int} {merge : Centroid F → Bool} {s t : List (Option (Centroid F))} {js : List Nat}
    {c c' : Centroid F} (h : Absorbing tk merge s js c c') (he : ∀ j ∈ js, s[j]? = t[j]?) : Absorbing tk merge t js c c' := by
  induction h with
  | done c => exact .done c
  | @next j js o c c1 c' h1 h2 h3 h4 ih =>
    exact .next h1 (by rw [← he j (by simp)]; exact h2) h3 (ih (fun k hk => he k (by simp [hk])))

/-- What the inner loop does. -/
structure InnerExact (tk : Nat → Int) (merge : Centroid F → Bool) (D i : Nat) (js marks : List Nat) (cs : List (Centroid F))
    (cand : Centroid F) (marks' : List Nat) (cs' : List (Centroid F)) : Prop where
  lasting : Lasting tk D cs'
  length : cs'.length = cs.length
  turn : ∃ ks rest cand', js.filter (fun j => decide (j ≠ i ∧ j ∉ marks)) = ks ++ rest ∧ (∀ m, m ∈ marks' ↔ m ∈ ks ∨ m ∈ marks) ∧
    Absorbing tk merge (slots marks cs) ks cand cand' ∧ cs'[i]? = some cand' ∧ (merge cand' = false ∨ rest = []) ∧
    ∀ k, k ≠ i → k ∉ ks → cs'[k]? = cs[k]?

theorem wp_mergeInner_exact {tk : Nat → Int} (merge : Centroid F → Bool) (D i : Nat) :
    ∀ (js marks : List Nat) (cs : List (Centroid F)) (cand : Centroid F) (p : Nat), Lasting tk D cs → cs[i]? = some cand →
      merge cand = true → js.Nodup → (∀ j ∈ js, j < cs.length) →
      Go.wp (mergeInner tk merge i js marks cs) (fun r _ => InnerExact tk merge D i js marks cs cand r.1 r.2) p
  | [], marks, cs, cand, p, hl, hc, hg, hn, hj => by
    unfold mergeInner
    rw [Go.wp_pure]
    exact ⟨hl, rfl, [], [], cand, rfl, by simp, .done cand, hc, .inr rfl, fun _ _ _ => rfl⟩
  | j :: js, marks, cs, cand, p, hl, hc, hg, hn, hj => by
    unfold mergeInner
    rw [List.nodup_cons] at hn
    rw [Go.wp_ite]
    refine ⟨fun hskip => ?_, fun hno => ?_⟩
    · refine Go.wp_mono (wp_mergeInner_exact merge D i js marks cs cand p hl hc hg hn.2 (fun x hx => hj x (by simp [hx])))
        (fun r p' h => ⟨h.lasting, h.length, ?_⟩)
      rw [List.filter_cons_of_neg (by simp only [decide_eq_true_eq]; exact fun h => hskip.elim h.1 h.2)]
      exact h.turn
    · have hji : j ≠ i := fun h => hno (.inl h)
      have hjm : j ∉ marks := fun h => hno (.inr h)
      have hjl : j < cs.length := hj j (by simp)
      have hil : i < cs.length := (List.getElem?_eq_some_iff.1 hc).1
      simp only [Go.wp_bind, Go.wp_idx]
      have hcj : cs[j]? = some cs[j] := List.getElem?_eq_getElem hjl
      have hmj := List.getElem_mem hjl
      generalize cs[j] = other at hcj hmj
      have hmi := List.mem_of_getElem? hc
      obtain ⟨o1, o2, o3⟩ := hl other hmj
      obtain ⟨i1, i2, i3⟩ := hl cand hmi
      refine ⟨other, hcj, Go.wp_mono (wp_drainWhole_exact other o2 o3 p) (fun r p1 hd => ?_)⟩
      obtain ⟨d1, d2, d3⟩ := hd
      have hci1 : (cs.set j r.2)[i]? = some cand := by rw [List.getElem?_set_ne hji]; exact hc
      refine ⟨cand, hci1, ?_⟩
      rw [d1]
      refine Go.wp_mono (wp_addAll_exact other.dps cand p1 i2 (fun d hd' => by rw [o2 d hd', o1, i1]) o3) (fun cand' p2 ha => ?_)
      obtain ⟨a1, a2, a3⟩ := ha
      have hl2 : Lasting tk D ((cs.set j r.2).set i cand') := by
        intro x hx
        rcases List.mem_or_eq_of_mem_set hx with hx | rfl
        · rcases List.mem_or_eq_of_mem_set hx with hx | rfl
          · exact hl x hx
          · refine ⟨d3.trans o1, ?_, ?_⟩
            · intro d hd'; rw [d2] at hd'; simp at hd'
            · intro d hd'; rw [d2] at hd'; simp at hd'
        · refine ⟨a3.trans i1, ?_, ?_⟩
          · intro d hd'
            rw [a2] at hd'
            rw [a3]
            rcases List.mem_append.1 hd' with hd' | hd'
            · exact i2 d hd'
            · rw [o2 d hd', o1, i1]
          · intro d hd'
            rw [a2] at hd'
            exact (List.mem_append.1 hd').elim (i3 d) (o3 d)
      have hgi : ((cs.set j r.2).set i cand')[i]? = some cand' := by
        rw [List.getElem?_set_self (by simpa using hil)]
      have hgne : ∀ k, k ≠ i → k ≠ j → ((cs.set j r.2).set i cand')[k]? = cs[k]? := fun k h1 h2 => by
        rw [List.getElem?_set_ne (Ne.symm h1), List.getElem?_set_ne (Ne.symm h2)]
      have hsj : (slots marks cs)[j]? = some (some other) := slots_some.2 ⟨hcj, hjm⟩
      have hfil : (j :: js).filter (fun j => decide (j ≠ i ∧ j ∉ marks)) = j :: js.filter (fun j => decide (j ≠ i ∧ j ∉ marks)) :=
        List.filter_cons_of_pos (by simp [hji, hjm])
      rw [Go.wp_ite]
      refine ⟨fun hmg => ?_, fun hmg => ?_⟩
      · rw [Go.wp_pure]
        refine ⟨hl2, by simp, [j], js.filter (fun j => decide (j ≠ i ∧ j ∉ marks)), cand', by rw [hfil]; rfl, by simp,
          .next hg hsj a1 (.done _), hgi, .inl (by simpa using hmg), fun k h1 h2 => hgne k h1 (by simpa using h2)⟩
      · refine Go.wp_mono (wp_mergeInner_exact merge D i js (j :: marks) _ cand' p2 hl2 hgi (by simpa using hmg) hn.2
          (fun x hx => by simpa using hj x (by simp [hx]))) (fun s p3 h => ?_)
        obtain ⟨ks, rest, c2, t1, t2, t3, t4, t5, t6⟩ := h.turn
        have hfil' : js.filter (fun x => decide (x ≠ i ∧ x ∉ j :: marks)) = js.filter (fun x => decide (x ≠ i ∧ x ∉ marks)) := by
          refine List.filter_congr (fun x hx => ?_)
          have : x ≠ j := fun h => hn.1 (h ▸ hx)
          simp [this]
        have hks : ∀ k ∈ ks, k ∈ js ∧ k ≠ i := fun k hk => by
          have : k ∈ js.filter (fun x => decide (x ≠ i ∧ x ∉ j :: marks)) := by rw [t1]; exact List.mem_append_left _ hk
          rw [List.mem_filter] at this
          exact ⟨this.1, by have := this.2; simp at this; exact this.1⟩
        refine ⟨h.lasting, h.length.trans (by simp), j :: ks, rest, c2, ?_, fun m => ?_, .next hg hsj a1 (absorbing_congr t3 ?_), t4, t5, ?_⟩
        · rw [hfil, ← hfil', t1]; rfl
        · rw [t2]; simp only [List.mem_cons]; tauto
        · intro k hk
          have h1 := hks k hk
          have h2 : k ≠ j := fun h => hn.1 (h ▸ h1.1)
          rw [slots_get, slots_get, hgne k h1.2 h2]
          simp [h2]
        · intro k h1 h2
          rw [t6 k h1 (fun h => h2 (by simp [h]))]
          exact hgne k h1 (fun h => h2 (by simp [h]))

theorem scored_iff {f : List F → List F → Option F} {asc : Bool} {v : List F} {marks : List Nat} {cs : List (Centroid F)} {k : Nat} {t : F} :
    Scored f asc v (slots marks cs) k t ↔ HasScore (f v) asc (cs.map (fun c => c.vec)) k t ∧ k ∉ marks := by
  constructor
  · rintro ⟨o, h1, h2, h3⟩
    obtain ⟨h4, h5⟩ := slots_some.1 h1
    exact ⟨⟨o.vec, by rw [List.getElem?_map, h4]; rfl, h2, h3⟩, h5⟩
  · rintro ⟨⟨u, h1, h2, h3⟩, h5⟩
    rw [List.getElem?_map, Option.map_eq_some_iff] at h1
    obtain ⟨o, h4, rfl⟩ := h1
    exact ⟨o, slots_some.2 ⟨h4, h5⟩, h2, h3⟩

theorem countP_all {α : Type} {P : α → Bool} {l : List α} : min l.length (l.countP P) = l.countP P :=
  Nat.min_eq_right List.countP_le_length

/-- A search for as many as there are reports all that can be compared. -/
theorem kbest_mem {dist : List F → Option F} {asc : Bool} {pool : List (List F)} {res : List Nat}
    (h : KBest dist asc pool pool.length res) {k : Nat} {t : F} (hk : HasScore dist asc pool k t) : k ∈ res := by
  by_contra hn
  have h1 := h.length
  rw [countP_all] at h1
  have hsub : (k :: res).Subperm (positions (isCandidate dist asc) pool) := by
    refine List.subperm_of_subset (List.nodup_cons.2 ⟨hn, h.nodup⟩) (fun i hi => ?_)
    have : ∃ s, HasScore dist asc pool i s := by
      rcases List.mem_cons.1 hi with rfl | hi
      · exact ⟨t, hk⟩
      · exact h.valid i hi
    obtain ⟨s, u, hu, hs, hc⟩ := this
    refine List.mem_map.2 ⟨(u, i), List.mem_filter.2 ⟨List.mem_zipIdx_iff_getElem?.2 hu, by simp [isCandidate, hs, hc]⟩, rfl⟩
  have h2 := hsub.length_le
  have h3 : (positions (isCandidate dist asc) pool).length = pool.countP (isCandidate dist asc) := by
    unfold positions
    rw [List.length_map, ← List.countP_eq_length_filter]
    conv_rhs => rw [← List.zipIdx_map_fst 0 pool]
    rw [List.countP_map]
    rfl
  rw [h3, ← h1] at h2
  simp at h2

/-- The outer loop does the turns. -/
theorem wp_mergeOuter_exact {tk : Nat → Int} (merge : Centroid F → Bool) (f : List F → List F → Option F) (asc : Bool) (D : Nat) :
    ∀ (is marks : List Nat) (cm : Manager F) (p : Nat), Lasting tk D cm.centroids →
      cm.knn = (fun v pool k => knnBrute v pool k asc f) → (∀ i ∈ is, i < cm.centroids.length) → (∀ m ∈ marks, m < cm.centroids.length) →
      Go.wp (mergeOuter tk merge is marks cm) (fun r _ => r.2.centroids.length = cm.centroids.length ∧
        (∀ m ∈ r.1, m < cm.centroids.length) ∧
        MergeTurns tk merge f asc is (slots marks cm.centroids) (slots r.1 r.2.centroids)) p
  | [], marks, cm, p, hl, hs, hi, hr => by
    unfold mergeOuter
    rw [Go.wp_pure]
    exact ⟨rfl, hr, .done _⟩
  | i :: is, marks, cm, p, hl, hs, hi, hr => by
    unfold mergeOuter
    have hil : i < cm.centroids.length := hi i (by simp)
    have hc : cm.centroids[i]? = some cm.centroids[i] := List.getElem?_eq_getElem hil
    generalize cm.centroids[i] = cand at hc
    simp only [Go.wp_bind, Go.wp_idx]
    refine ⟨cand, hc, ?_⟩
    rw [Go.wp_ite]
    refine ⟨fun hskip => ?_, fun hno => ?_⟩
    · refine Go.wp_mono (wp_mergeOuter_exact merge f asc D is marks cm p hl hs (fun j hj => hi j (by simp [hj])) hr)
        (fun r p' h => ⟨h.1, h.2.1, .next ?_ h.2.2⟩)
      by_cases him : i ∈ marks
      · exact .gone (by rw [slots_get, hc]; simp [him])
      · refine .fine (slots_some.2 ⟨hc, him⟩) ?_
        simpa [him] using hskip
    · simp only [Bool.or_eq_true, Bool.not_eq_true', decide_eq_true_eq, not_or, Bool.not_eq_false] at hno
      obtain ⟨js, h1, hb⟩ := knnBrute_kbest cand.vec f asc cm.centroids.length cm.centroidVecs
      simp only [Go.wp_bind, Go.wp_lift, Go.wp_idx]
      have hlen : cm.centroidVecs.length = cm.centroids.length := List.length_map ..
      have hjs : ∀ j ∈ js, j < cm.centroids.length := fun j hj => by
        obtain ⟨s, u, hu, _⟩ := hb.valid j hj
        rw [← hlen]
        exact (List.getElem?_eq_some_iff.1 hu).1
      refine ⟨js, by rw [hs]; exact h1, Go.wp_mono (wp_mergeInner_exact merge D i js marks cm.centroids cand p hl hc hno.1 hb.nodup hjs)
        (fun r p1 hin => ?_)⟩
      obtain ⟨ks, rest, cand', t1, t2, t3, t4, t5, t6⟩ := hin.turn
      refine ⟨cand', t4, ?_⟩
      have hks : ∀ k ∈ ks, k ∈ js ∧ k ≠ i ∧ k ∉ marks := fun k hk => by
        have : k ∈ js.filter (fun x => decide (x ≠ i ∧ x ∉ marks)) := by rw [t1]; exact List.mem_append_left _ hk
        rw [List.mem_filter] at this
        exact ⟨this.1, by simpa using this.2⟩
      refine Go.wp_mono (wp_mergeOuter_exact merge f asc D is r.1 _ p1 hin.lasting hs
        (fun j hj => by show j < r.2.length; rw [hin.length]; exact hi j (by simp [hj]))
        (fun m hm' => by
          show m < r.2.length
          rw [hin.length]
          exact ((t2 m).1 hm').elim (fun h => hjs m (hks m h).1) (hr m))) (fun s p2 h => ?_)
      have hcl : (({ cm with centroids := r.2 } : Manager F).updateVec cand.vec cand'.vec).centroids = r.2 := rfl
      rw [hcl, hin.length] at h
      refine ⟨h.1, h.2.1, .next ?_ h.2.2⟩
      have hall : ∀ k t, k ≠ i → Scored f asc cand.vec (slots marks cm.centroids) k t → k ∈ ks ++ rest := fun k t hki hk => by
        obtain ⟨e1, e2⟩ := scored_iff.1 hk
        rw [← t1, List.mem_filter]
        rw [← hlen] at hb
        exact ⟨kbest_mem hb e1, by simp [hki, e2]⟩
      have hsub : (ks ++ rest).Sublist js := by rw [← t1]; exact List.filter_sublist
      have hsorted := (hb.sorted.sublist hsub)
      have hnd := hb.nodup.sublist hsub
      rw [List.pairwise_append] at hsorted
      refine .absorb (slots_some.2 ⟨hc, hno.2⟩) hno.1 ⟨(List.nodup_append.1 hnd).1, fun j hj => ?_, ?_, ?_⟩ t3 ?_ ?_ ?_ ?_ ?_
      · obtain ⟨e1, e2, e3⟩ := hks j hj
        obtain ⟨s, hs'⟩ := hb.valid j e1
        exact ⟨e2, s, scored_iff.2 ⟨hs', e3⟩⟩
      · exact hsorted.1.imp (fun h x y hx hy => h x y (scored_iff.1 hx).1 (scored_iff.1 hy).1)
      · intro j hj k hki hkn x y hx hy
        have := hall k y hki hy
        exact hsorted.2.2 j hj k ((List.mem_append.1 this).resolve_left hkn) x y (scored_iff.1 hx).1 (scored_iff.1 hy).1
      · refine t5.imp id (fun hrest k hki hkn t ht => ?_)
        have := hall k t hki ht
        rw [hrest, List.append_nil] at this
        exact hkn this
      · unfold slots; rw [List.length_mapIdx, List.length_mapIdx, hin.length]
      · exact slots_some.2 ⟨t4, fun h => ((t2 i).1 h).elim (fun h => (hks i h).2.1 rfl) hno.2⟩
      · intro j hj
        rw [slots_get]
        have : j < r.2.length := by rw [hin.length]; exact hjs j (hks j hj).1
        rw [List.getElem?_eq_getElem this]
        simp [(t2 j).2 (.inl hj)]
      · intro k hki hkn
        rw [slots_get, slots_get, t6 k hki hkn]
        have : k ∈ r.1 ↔ k ∈ marks := by rw [t2]; simp [hkn]
        simp only [this]

end Manager

/-- C112. `MergeCentroids` with a library search, when nothing expires: the centroids have their turns in order, and each that is
still there and of which `merge` holds absorbs the others nearest first until `merge` no longer holds of it or none is left
that can be compared. The centroids that were not absorbed are left, in their order. -/
theorem C112_merge {tk : Nat → Int} {cm : Manager F} (hok : ManagerOK cm) {f : List F → List F → Option F} {asc : Bool}
    (hs : cm.knn = fun v pool k => knnBrute v pool k asc f) (merge : Centroid F → Bool)
    (hl : ∀ d ∈ stored cm, ∀ q, ¬ Dead (tk q) d) (p : Nat) :
    ∃ cm' p', cm.mergeCentroids tk merge p = .ok (cm', p') ∧ Coalesced tk merge f asc cm.centroids cm'.centroids := by
  suffices h : Go.wp (cm.mergeCentroids tk merge) (fun cm' _ => Coalesced tk merge f asc cm.centroids cm'.centroids) p by
    obtain ⟨cm', p', h0, h1⟩ := Go.wp_iff.1 h
    exact ⟨cm', p', h0, h1⟩
  have hlast : Manager.Lasting tk cm.vec.length cm.centroids := fun c hc =>
    ⟨(hok.wf.dim c hc).1, (hok.wf.dim c hc).2, fun d hd => hl d (List.mem_flatMap.2 ⟨c, hc, hd⟩)⟩
  unfold Manager.mergeCentroids
  simp only [Go.wp_bind]
  refine Go.wp_mono (Manager.wp_mergeOuter_exact merge f asc cm.vec.length _ [] cm p hlast hs (by simp) (by simp)) (fun r p1 h => ?_)
  obtain ⟨h1, h2, h3⟩ := h
  refine Go.wp_mono (Manager.wp_deleteAll_exact _ r.2 p1 (Manager.filter_desc _ _) (fun i hi => ?_)) (fun cm' _ hd => ?_)
  · rw [h1]; simpa using (List.mem_filter.1 hi).1
  · have e0 : Manager.slots [] cm.centroids = cm.centroids.map some := by
      refine List.ext_getElem? (fun k => ?_)
      rw [Manager.slots_get]; simp
    rw [e0] at h3
    refine ⟨_, h3, hd.trans (congrArg List.reduceOption ?_)⟩
    refine List.ext_getElem? (fun k => ?_)
    rw [Manager.slots_get, Manager.slots_get]
    have : k ∈ (List.range cm.centroids.length).reverse.filter (· ∈ r.1) ↔ k ∈ r.1 := by
      rw [List.mem_filter]
      simp only [List.mem_reverse, List.mem_range, decide_eq_true_eq]
      exact ⟨fun h => h.2, fun h => ⟨h2 k h, h⟩⟩
    simp only [this]

/-! ### C113 -/

theorem adding_dps {tk : Nat → Int} {ds : List (DataPoint F)} {c c' : Centroid F} (h : Adding tk ds c c') : c'.dps = c.dps ++ ds := by
  induction h with
  | done c => simp
  | @next d ds c c1 c' q q' h1 h2 ih =>
    have : Go.wp (c.addDataPoint tk d) (fun r _ => r.1 = true → r.2.dps = c.dps ++ [d]) q := by
      rw [Centroid.wp_addDataPoint]
      split
      · simp
      · split <;> simp [Centroid.addRaw]
    obtain ⟨r, p', e1, e2⟩ := Go.wp_iff.1 this
    rw [h1] at e1
    cases e1
    rw [ih, e2 rfl]; simp

theorem mergeTurns_idle {tk : Nat → Int} {merge : Centroid F → Bool} {f : List F → List F → Option F} {asc : Bool} {is : List Nat}
    {s s' : List (Option (Centroid F))} (h : MergeTurns tk merge f asc is s s')
    (hi : ∀ i ∈ is, ∀ c, s[i]? = some (some c) → merge c = false) : s' = s := by
  induction h with
  | done s => rfl
  | @next i is s s1 s' h1 h2 ih =>
    have : s1 = s := by
      cases h1 with
      | gone => rfl
      | fine => rfl
      | absorb e1 e2 => rw [hi i (by simp) _ e1] at e2; cases e2
    subst this
    exact ih (fun j hj => hi j (by simp [hj]))

theorem mergeTurns_append {tk : Nat → Int} {merge : Centroid F → Bool} {f : List F → List F → Option F} {asc : Bool} {b : List Nat} :
    ∀ {a : List Nat} {s s' : List (Option (Centroid F))}, MergeTurns tk merge f asc (a ++ b) s s' →
      ∃ s1, MergeTurns tk merge f asc a s s1 ∧ MergeTurns tk merge f asc b s1 s'
  | [], s, s', h => ⟨s, .done s, h⟩
  | i :: a, s, s', h => by
    cases h with
    | next h1 h2 =>
      obtain ⟨s1, e1, e2⟩ := mergeTurns_append h2
      exact ⟨s1, .next h1 e1, e2⟩

theorem range_split_at {i n : Nat} (h : i < n) : List.range n = List.range i ++ i :: List.range' (i + 1) (n - (i + 1)) := by
  have : List.range n = List.range' 0 n := List.range_eq_range'
  rw [this, List.range_eq_range']
  have e : n = i + (1 + (n - (i + 1))) := by omega
  conv_lhs => rw [e, ← List.range'_append_1, ← List.range'_append_1]
  simp

/-- C113, what holds: if only the centroid at `i` has fewer than `m` datapoints, then `MergeCentroids` with the predicate
"fewer than `m`" appends to it those of a centroid than which none is nearer, and removes that one. It does nothing if the
centroid can be compared with no other. -/
theorem C113_one_partial {tk : Nat → Int} {cm : Manager F} (hok : ManagerOK cm) {f : List F → List F → Option F} {asc : Bool}
    (hs : cm.knn = fun v pool k => knnBrute v pool k asc f) (hl : ∀ d ∈ stored cm, ∀ q, ¬ Dead (tk q) d) (m i : Nat) {c : Centroid F}
    (hc : cm.centroids[i]? = some c) (hsm : c.dps.length < m)
    (hbig : ∀ (k : Nat) (o : Centroid F), k ≠ i → cm.centroids[k]? = some o → m ≤ o.dps.length) (p : Nat) :
    ∃ cm' p', cm.mergeCentroids tk (fun c => decide (c.dps.length < m)) p = .ok (cm', p') ∧
      ((∃ (j : Nat) (o : Centroid F) (x : F), j ≠ i ∧ cm.centroids[j]? = some o ∧ f c.vec o.vec = some x ∧ Comparable asc x ∧
          (∀ (k : Nat) (o' : Centroid F) (y : F), k ≠ i → cm.centroids[k]? = some o' → f c.vec o'.vec = some y → Comparable asc y →
            ¬ Better asc y x) ∧
          cm'.centroids.map (fun c => c.dps) = ((cm.centroids.map (fun c => c.dps)).set i (c.dps ++ o.dps)).eraseIdx j) ∨
        ((∀ (k : Nat) (o' : Centroid F) (y : F), k ≠ i → cm.centroids[k]? = some o' → f c.vec o'.vec = some y → ¬ Comparable asc y) ∧
          cm'.centroids = cm.centroids)) := by
  obtain ⟨cm', p', h0, s, h1, h2⟩ := C112_merge (tk := tk) hok hs (fun c => decide (c.dps.length < m)) hl p
  refine ⟨cm', p', h0, ?_⟩
  have hil : i < cm.centroids.length := (List.getElem?_eq_some_iff.1 hc).1
  have hget : ∀ (k : Nat) (o : Centroid F), (cm.centroids.map some)[k]? = some (some o) ↔ cm.centroids[k]? = some o := fun k o => by
    simp
  rw [range_split_at hil] at h1
  obtain ⟨s1, a1, a2⟩ := mergeTurns_append h1
  have := mergeTurns_idle a1 (fun k hk o ho => by
    have := hbig k o (by have := List.mem_range.1 hk; omega) ((hget k o).1 ho)
    simpa using this)
  subst this
  cases a2 with
  | @next _ _ _ s2 _ b1 b2 =>
    cases b1 with
    | gone e => simp [hc] at e
    | @fine c1 e e' =>
      rw [hget, hc] at e; cases e
      simp at e'; omega
    | @absorb _ c1 c' js e1 e2 e3 e4 e5 e6 e7 e8 e9 =>
      rw [hget, hc] at e1; cases e1
      cases js with
      | nil =>
        cases e4 with
        | done =>
          right
          have hnone : ∀ (k : Nat) (o' : Centroid F) (y : F), k ≠ i → cm.centroids[k]? = some o' → f c.vec o'.vec = some y → ¬ Comparable asc y :=
            fun k o' y hk ho hy hcy => by
              rcases e5 with e5 | e5
              · rw [e5] at e2; cases e2
              · exact e5 k hk (by simp) y ⟨o', (hget k o').2 ho, hy, hcy⟩
          refine ⟨hnone, ?_⟩
          have hs2 : s2 = cm.centroids.map some := by
            refine List.ext_getElem? (fun k => ?_)
            rcases eq_or_ne k i with rfl | hk
            · rw [e7]; exact ((hget k c).2 hc).symm
            · exact e9 k hk (by simp)
          subst hs2
          have := mergeTurns_idle b2 (fun k hk o ho => by
            have := hbig k o (by have := (List.mem_range'_1.1 hk).1; omega) ((hget k o).1 ho)
            simpa using this)
          subst this
          rw [h2]
          simp [List.reduceOption]
      | cons j js =>
        left
        have hj := e3.valid j (by simp)
        obtain ⟨hji, x, o, ho, hx, hcx⟩ := hj
        cases e4 with
        | @next _ _ o1 _ c1 _ f1 f2 f3 f4 =>
          rw [f2] at ho; cases ho
          have ho := (hget j o).1 f2
          have hdps := adding_dps f3
          have hm1 : ¬ c1.dps.length < m := by
            rw [hdps, List.length_append]
            have := hbig j o hji ho
            omega
          have hjs : js = [] ∧ c' = c1 := by
            cases f4 with
            | done => exact ⟨rfl, rfl⟩
            | next g => simp [hm1] at g
          obtain ⟨rfl, rfl⟩ := hjs
          refine ⟨j, o, x, hji, ho, hx, hcx, fun k o' y hk ho' hy hcy hb => ?_, ?_⟩
          · rcases eq_or_ne k j with rfl | hkj
            · rw [ho] at ho'; cases ho'
              rw [hx] at hy; cases hy
              exact better_irrefl _ _ hb
            · exact e3.best j (by simp) k hk (by simpa using hkj) x y ⟨o, f2, hx, hcx⟩ ⟨o', (hget k o').2 ho', hy, hcy⟩ hb
          · have hjl : j < cm.centroids.length := (List.getElem?_eq_some_iff.1 ho).1
            have hs2 : s2 = ((cm.centroids.map some).set i (some c')).set j none := by
              refine List.ext_getElem? (fun k => ?_)
              rcases eq_or_ne k j with rfl | hkj
              · rw [e8 k (by simp), List.getElem?_set_self (by simpa using hjl)]
              · rw [List.getElem?_set_ne (Ne.symm hkj)]
                rcases eq_or_ne k i with rfl | hk
                · rw [e7, List.getElem?_set_self (by simpa using hil)]
                · rw [List.getElem?_set_ne (Ne.symm hk)]
                  exact e9 k hk (by simpa using hkj)
            have := mergeTurns_idle b2 (fun k hk o' ho' => by
              have hki : k ≠ i := by have := (List.mem_range'_1.1 hk).1; omega
              rcases eq_or_ne k j with rfl | hkj
              · rw [e8 k (by simp)] at ho'; cases ho'
              · rw [e9 k hki (by simpa using hkj)] at ho'
                have := hbig k o' hki ((hget k o').1 ho')
                simpa using this)
            subst this
            rw [h2, hs2, ← Manager.reduceOption_eraseIdx _ j (List.getElem?_set_self (by simpa using hjl)), List.eraseIdx_set_eq,
              ← List.map_set, List.eraseIdx_map]
            have hr : ∀ l : List (Centroid F), (l.map some).reduceOption = l := fun l => by simp [List.reduceOption]
            rw [hr, ← List.eraseIdx_map, List.map_set, hdps]

namespace MergeExample
open PlaceExample

/-- Six datapoints added to an empty manager with threshold 2: six centroids. -/
def six : List (ManagerCall F64) := [.add (pt 0 1), .add (pt (-2) 0), .add (pt 1 (-2)), .add (pt (-1) (-1)), .add (pt 1 0), .add (pt (-1) 0)]

/-- Fewer than three. -/
def few (c : Centroid F64) : Bool := decide (c.dps.length < 3)

end MergeExample
open PlaceExample MergeExample

/-- C113 is false of the code: the first centroid, (1,0), takes (1,-2), whereupon its vector is (1,-1), and then (0,1), although
(-1,-1) is nearer to (1,-1). The order is that of the similarity with the vector it had at first. -/
theorem C113_refuted : ∃ (w : ManagerWorld F64) (m : Manager F64) (p p' : Nat),
    runManager (fun _ => 0) [.ofInt 0, .ofInt 0] 10 2 knnCos kfnCos six 0 = .ok (w, p) ∧
    lists w.cm = [[pt 1 0], [pt 0 1], [pt (-1) (-1)], [pt (-1) 0], [pt 1 (-2)], [pt (-2) 0]] ∧
    w.cm.mergeCentroids (fun _ => 0) few p = .ok (m, p') ∧
    lists m = [[pt 1 0, pt 1 (-2), pt 0 1], [pt (-1) (-1), pt (-1) 0, pt (-2) 0]] ∧
    vecMean [(pt 1 0).vec, (pt 1 (-2)).vec] = ([.ofInt 1, .ofInt (-1)], true) ∧
    Nearest [.ofInt 1, .ofInt (-1)] [(pt 0 1).vec, (pt (-1) (-1)).vec] (some 1) := by
  have h : (runManager (fun _ => 0) [F64.ofInt 0, .ofInt 0] 10 2 knnCos kfnCos six 0).map (fun r => decide (
      lists r.1.cm = [[pt 1 0], [pt 0 1], [pt (-1) (-1)], [pt (-1) 0], [pt 1 (-2)], [pt (-2) 0]] ∧
      (r.1.cm.mergeCentroids (fun _ => 0) few r.2).map (fun s => lists s.1) =
        .ok [[pt 1 0, pt 1 (-2), pt 0 1], [pt (-1) (-1), pt (-1) 0, pt (-2) 0]])) = .ok true := by
    decide +kernel
  cases hr : runManager (fun _ => 0) [F64.ofInt 0, .ofInt 0] 10 2 knnCos kfnCos six 0 with
  | error e => rw [hr] at h; cases h
  | ok r =>
    rw [hr] at h
    obtain ⟨h1, h2⟩ := of_decide_eq_true (Except.ok.inj h)
    cases hs : r.1.cm.mergeCentroids (fun _ => 0) few r.2 with
    | error e => rw [hs] at h2; cases h2
    | ok s =>
      rw [hs] at h2
      exact ⟨r.1, s.1, r.2, s.2, rfl, h1, hs, Except.ok.inj h2, by decide +kernel, nearest_of_search (by decide +kernel)⟩

/-! ### Examples -/

namespace MergeExample

/-- A centroid with one datapoint or several, all with searches by cosine. -/
def grp (v : List F64) (l : List (DataPoint F64)) : Centroid F64 := ⟨v, l, knnCos, kfnCos⟩

/-- Three centroids; the second has one datapoint, the others have two. -/
def trio : Manager F64 := ⟨[.ofInt 0, .ofInt 0], 10,
  [grp [.ofInt 0, .ofInt 2] [pt 0 1, pt 0 3], grp [.ofInt 1, .ofInt (-1)] [pt 1 (-1)], grp [.ofInt 2, .ofInt 0] [pt 1 0, pt 3 0]],
  5, knnCos, kfnCos⟩

theorem trio_ok : ManagerOK trio :=
  Manager.WF.ok ⟨by decide, ⟨searchOK_prefabs.1, searchOK_prefabs.2.1⟩, by simp [trio, grp], by simp [trio, grp, Centroid.DimOK, pt]⟩

theorem trio_live : ∀ d ∈ stored trio, ∀ q : Nat, ¬ Dead ((fun _ => 0 : Nat → Int) q) d := by
  simp [stored, trio, grp, pt, Dead]

end MergeExample

/-- C112: merging all. The first absorbs the third, then the second. -/
example : ∃ m p', trio.mergeCentroids (fun _ => 0) (fun _ => true) 0 = .ok (m, p') ∧
    Coalesced (fun _ => 0) (fun _ => true) cosineSimilarity false trio.centroids m.centroids :=
  C112_merge trio_ok rfl _ trio_live 0

example : ∃ m p', trio.mergeCentroids (fun _ => 0) (fun _ => true) 0 = .ok (m, p') ∧
    lists m = [[pt 0 1, pt 0 3, pt 1 0, pt 3 0, pt 1 (-1)]] :=
  exists_of_run (f := lists) (by decide +kernel)

/-- C113: only the second has fewer than two. It absorbs the third, which is nearest. -/
example : ∃ m p', trio.mergeCentroids (fun _ => 0) (fun c => decide (c.dps.length < 2)) 0 = .ok (m, p') ∧
    (m.centroids = trio.centroids ∨ ∃ (j : Nat) (o : Centroid F64), j ≠ 1 ∧ trio.centroids[j]? = some o ∧
      lists m = ((lists trio).set 1 ([pt 1 (-1)] ++ o.dps)).eraseIdx j) := by
  obtain ⟨m, p', h0, h⟩ := C113_one_partial trio_ok rfl trio_live 2 1 (c := grp [.ofInt 1, .ofInt (-1)] [pt 1 (-1)]) rfl (by simp [grp])
    (fun k o hk ho => by
      rcases k with _ | _ | _ | k
      · cases ho; simp [grp]
      · exact absurd rfl hk
      · cases ho; simp [grp]
      · simp [trio] at ho) 0
  refine ⟨m, p', h0, ?_⟩
  rcases h with ⟨j, o, x, h1, h2, _, _, _, h3⟩ | ⟨_, h⟩
  · exact .inr ⟨j, o, h1, h2, h3⟩
  · exact .inl h

example : ∃ m p', trio.mergeCentroids (fun _ => 0) (fun c => decide (c.dps.length < 2)) 0 = .ok (m, p') ∧
    lists m = [[pt 0 1, pt 0 3], [pt 1 (-1), pt 1 0, pt 3 0]] :=
  exists_of_run (f := lists) (by decide +kernel)

end Trypo
