import Verif.Proofs.Centroid

/-!
# Lemmas about pkg/kmeans/centroid: draining in storage order, MemTrim, MoveVector, adding, distributing
-/

set_option linter.unusedSectionVars false
set_option linter.unusedVariables false

namespace Trypo
open GoFloat Spec

variable {F : Type} [GoFloat F]

/-- The datapoints found live when checked one after the other, starting at clock position `p`. -/
def liveReads (tk : Nat → Int) : Nat → List (DataPoint F) → List (DataPoint F)
  | _, [] => []
  | p, d :: l => if d.expiredAt (tk p) then liveReads tk (p + 1) l else d :: liveReads tk (p + 1) l

theorem liveReads_cons (tk : Nat → Int) (p : Nat) (d : DataPoint F) (l : List (DataPoint F)) :
    liveReads tk p (d :: l) =
      if d.expiredAt (tk p) then liveReads tk (p + 1) l else d :: liveReads tk (p + 1) l := rfl

theorem liveReads_append (tk : Nat → Int) : ∀ (a b : List (DataPoint F)) (p : Nat),
    liveReads tk p (a ++ b) = liveReads tk p a ++ liveReads tk (p + a.length) b
  | [], b, p => by simp [liveReads]
  | d :: a, b, p => by
    simp only [List.cons_append, liveReads, liveReads_append tk a b (p + 1), List.length_cons]
    have : p + 1 + a.length = p + (a.length + 1) := by omega
    rw [this]
    split <;> simp

theorem liveReads_sublist (tk : Nat → Int) : ∀ (l : List (DataPoint F)) (p : Nat), (liveReads tk p l).Sublist l
  | [], p => by simp [liveReads]
  | d :: l, p => by
    unfold liveReads
    split
    · exact (liveReads_sublist tk l (p + 1)).cons _
    · exact (liveReads_sublist tk l (p + 1)).cons_cons _

theorem liveReads_lost {tk : Nat → Int} (hm : MonoClock tk) : ∀ (l : List (DataPoint F)) (p q : Nat), p + l.length ≤ q →
    ∃ lost, (liveReads tk p l ++ lost).Perm l ∧ ∀ d ∈ lost, Dead (tk q) d
  | [], p, q, _ => ⟨[], by simp [liveReads]⟩
  | d :: l, p, q, h => by
    simp only [List.length_cons] at h
    obtain ⟨lost, h1, h2⟩ := liveReads_lost hm l (p + 1) q (by omega)
    unfold liveReads
    split
    · rename_i hd
      refine ⟨d :: lost, by permc [h1], fun e he => ?_⟩
      rcases List.mem_cons.1 he with rfl | he
      · exact ((expiredAt_iff _ _).1 hd).mono hm (by omega)
      · exact h2 e he
    · exact ⟨lost, by permc [h1], h2⟩

theorem liveReads_upper {tk : Nat → Int} (hm : MonoClock tk) : ∀ (l : List (DataPoint F)) (p q : Nat), q ≤ p →
    (liveReads tk p l).Sublist (l.filter (fun d => !d.expiredAt (tk q)))
  | [], p, q, _ => by simp [liveReads]
  | d :: l, p, q, h => by
    have ih := liveReads_upper hm l (p + 1) q (by omega)
    unfold liveReads
    rw [List.filter_cons]
    split
    · split
      · exact ih.cons _
      · exact ih
    · rename_i hd
      rw [if_pos]
      · exact ih.cons_cons _
      · simp only [Bool.not_eq_true', expiredAt_false_iff]
        intro h'
        exact hd ((expiredAt_iff _ _).2 (h'.mono hm h))

theorem liveReads_lower {tk : Nat → Int} (hm : MonoClock tk) : ∀ (l : List (DataPoint F)) (p q : Nat), p + l.length ≤ q →
    (l.filter (fun d => !d.expiredAt (tk q))).Sublist (liveReads tk p l)
  | [], p, q, _ => by simp [liveReads]
  | d :: l, p, q, h => by
    simp only [List.length_cons] at h
    have ih := liveReads_lower hm l (p + 1) q (by omega)
    rw [List.filter_cons, liveReads_cons]
    by_cases he : d.expiredAt (tk p) = true
    · have : d.expiredAt (tk q) = true := (expiredAt_iff _ _).2 (((expiredAt_iff _ _).1 he).mono hm (by omega))
      simpa [he, this] using ih
    · rw [if_neg he]
      split
      · exact ih.cons_cons _
      · exact ih.cons _

theorem liveReads_live {tk : Nat → Int} (hm : MonoClock tk) (l : List (DataPoint F)) (p q : Nat) (h : q ≤ p) :
    AllLive (tk q) (liveReads tk p l) := by
  intro d hd
  have := (liveReads_upper hm l p q h).subset hd
  simpa [expiredAt_false_iff] using (List.mem_filter.1 this).2

namespace Centroid

/-! ### DrainUnordered -/

theorem wp_drainUnorderedLoop (tk : Nat → Int) (n : Nat) : ∀ (fuel : Nat) (c : Centroid F) (res : List (DataPoint F))
    (p : Nat), c.dps.length ≤ fuel → Go.wp (drainUnorderedLoop tk n fuel c res) (fun r p' =>
      ∃ pre, RmSteps c pre r.2 ∧ c.dps = pre ++ r.2.dps ∧ r.1 = res ++ liveReads tk p pre ∧ p' = p + pre.length ∧
        r.1.length ≤ max n res.length ∧ (r.1.length < n → r.2.dps = []) ∧
        (res.length < n → c.dps ≠ [] → pre ≠ [])) p
  | 0, c, res, p, hf => by
    unfold drainUnorderedLoop
    rw [Go.wp_pure]
    have : c.dps = [] := List.length_eq_zero_iff.1 (by omega)
    exact ⟨[], .refl c, rfl, by simp [liveReads], rfl, Nat.le_max_right _ _, fun _ => this, fun _ h => absurd this h⟩
  | fuel + 1, c, res, p, hf => by
    unfold drainUnorderedLoop
    cases h : c.dps with
    | nil =>
      simp only [Go.wp_pure]
      exact ⟨[], .refl c, by simp [h], by simp [liveReads], rfl, Nat.le_max_right _ _, fun _ => h, fun _ h' => absurd rfl h'⟩
    | cons d l =>
      have hget : c.dps[0]? = some d := by rw [h]; rfl
      have hdps : (c.rmP 0 d).dps = l := by show c.dps.eraseIdx 0 = l; rw [h]; rfl
      simp only [Go.wp_ite, Go.wp_bind, DataPoint.wp_expired, rm_eq hget, Go.wp_pure]
      constructor
      · intro hlt
        refine Go.wp_mono (wp_drainUnorderedLoop tk n fuel (c.rmP 0 d) _ (p + 1) ?_) (fun r p' hr => ?_)
        · rw [hdps]; rw [h] at hf; simpa using hf
        · obtain ⟨pre, h1, h2, h3, h4, h5, h6, h7⟩ := hr
          refine ⟨d :: pre, .step hget h1, ?_, ?_, ?_, ?_, h6, by simp⟩
          · rw [hdps] at h2; rw [h2]; rfl
          · rw [h3, liveReads_cons]
            split <;> simp
          · simp only [List.length_cons]; omega
          · refine Nat.le_trans h5 ?_
            split
            · exact Nat.le_refl _
            · simp only [List.length_append, List.length_singleton]; omega
      · intro hge
        exact ⟨[], .refl c, by simp [h], by simp [liveReads], rfl, by omega, fun h' => absurd h' hge, fun h' => absurd h' hge⟩

theorem wp_drainUnordered (tk : Nat → Int) (c : Centroid F) {n : Int} (hn : 0 ≤ n) (p : Nat) :
    Go.wp (c.drainUnordered tk n) (fun r p' => ∃ pre, RmSteps c pre r.2 ∧ c.dps = pre ++ r.2.dps ∧
      r.1 = liveReads tk p pre ∧ p' = p + pre.length ∧ (r.1.length : Int) ≤ n ∧
      ((r.1.length : Int) < n → r.2.dps = []) ∧ (0 < n → c.dps ≠ [] → pre ≠ [])) p := by
  unfold drainUnordered
  simp only [Go.wp_bind, Go.wp_checkMake]
  refine ⟨hn, ?_⟩
  refine Go.wp_mono (wp_drainUnorderedLoop tk n.toNat _ c [] p (Nat.le_refl _)) (fun r p' hr => ?_)
  obtain ⟨pre, h1, h2, h3, h4, h5, h6, h7⟩ := hr
  refine ⟨pre, h1, h2, by simpa using h3, h4, ?_, fun h => h6 (by omega), fun h => h7 (by simp; omega)⟩
  simp only [List.length_nil, Nat.max_zero] at h5
  omega

/-! ### MemTrim -/

theorem wp_memTrimLoop (tk : Nat → Int) : ∀ (fuel : Nat) (c : Centroid F) (acc : List (DataPoint F)) (p : Nat),
    c.dps.length ≤ fuel → Go.wp (memTrimLoop tk fuel c acc) (fun r p' => RmSteps c c.dps r.2 ∧ r.2.dps = [] ∧
      r.1 = acc ++ liveReads tk p c.dps ∧ p' = p + c.dps.length) p
  | 0, c, acc, p, hf => by
    unfold memTrimLoop
    rw [Go.wp_pure]
    have : c.dps = [] := List.length_eq_zero_iff.1 (by omega)
    exact ⟨by rw [this]; exact .refl c, this, by simp [liveReads, this], by simp [this]⟩
  | fuel + 1, c, acc, p, hf => by
    unfold memTrimLoop
    simp only [Go.wp_ite, Go.wp_bind, Go.wp_pure]
    constructor
    · intro hpos
      have hne : c.dps ≠ [] := by intro h; rw [h] at hpos; simp at hpos
      refine Go.wp_mono (wp_drainUnordered tk c (by omega) p) (fun r p1 hr => ?_)
      obtain ⟨pre, h1, h2, h3, h4, h5, h6, h7⟩ := hr
      have hpre : pre ≠ [] := h7 (by omega) hne
      have hlen : 0 < pre.length := List.length_pos_iff.2 hpre
      have hl := congrArg List.length h2
      simp only [List.length_append] at hl
      refine Go.wp_mono (wp_memTrimLoop tk fuel r.2 _ p1 (by omega)) (fun s p2 hs => ?_)
      obtain ⟨g1, g2, g3, g4⟩ := hs
      refine ⟨?_, g2, ?_, by omega⟩
      · have := h1.trans g1
        rwa [← h2] at this
      · rw [g3, h3, h4, h2, liveReads_append]
        simp
    · intro hz
      have : c.dps = [] := List.length_eq_zero_iff.1 (by omega)
      exact ⟨by rw [this]; exact .refl c, this, by simp [liveReads, this], by simp [this]⟩

theorem wp_memTrim (tk : Nat → Int) (c : Centroid F) (p : Nat) :
    Go.wp (c.memTrim tk) (fun c' p' => ∃ c0, RmSteps c c.dps c0 ∧ c' = { c0 with dps := liveReads tk p c.dps } ∧
      p' = p + c.dps.length) p := by
  unfold memTrim
  simp only [Go.wp_bind, Go.wp_pure]
  refine Go.wp_mono (wp_memTrimLoop tk _ c [] p (Nat.le_refl _)) (fun r p' hr => ?_)
  exact ⟨r.2, hr.1, by rw [hr.2.2.1]; rfl, hr.2.2.2⟩

/-! ### MoveVector -/

theorem wp_meanLoop {tk : Nat → Int} (hm : MonoClock tk) : ∀ (fuel : Nat) (res : List F) (m : F) (c : Centroid F)
    (i p : Nat), c.dps.length < fuel + i → (∀ d ∈ c.dps, d.vec.length = res.length) →
    Go.wp (meanLoop tk fuel res m c i) (fun r p' => Purged tk i p p' c r.2 ∧
      r.1 = vecMeanLoop res m ((r.2.dps.drop i).map (fun d => d.vec))) p
  | 0, res, m, c, i, p, hf, _ => by
    unfold meanLoop
    rw [Go.wp_pure]
    have h : c.dps[i]? = none := List.getElem?_eq_none (by omega)
    refine ⟨Purged.nil h, ?_⟩
    rw [List.drop_eq_nil_of_le (List.getElem?_eq_none_iff.1 h)]; rfl
  | fuel + 1, res, m, c, i, p, hf, hdim => by
    unfold meanLoop genNext
    simp only [Go.wp_bind]
    refine Go.wp_mono (Go.wp_and (wp_skipExpired hm i _ c p (by omega)) (wp_skip_steps tk i c.dps.length c p))
      (fun c' p' hp => ?_)
    obtain ⟨hp, removed, hrm⟩ := hp
    have hdim' : ∀ d ∈ c'.dps, d.vec.length = res.length := fun d hd => hdim d (hrm.sublist.subset hd)
    cases h' : c'.dps[i]? with
    | none =>
      rw [h'] at hp
      simp only [Go.wp_pure]
      refine ⟨hp.2, ?_⟩
      rw [List.drop_eq_nil_of_le (List.getElem?_eq_none_iff.1 h')]; rfl
    | some d =>
      rw [h'] at hp
      have hdl := hdim' d (List.mem_of_getElem? h')
      simp only [Go.wp_pure, Go.wp_ite]
      refine ⟨fun hne => absurd hdl hne, fun _ => ?_⟩
      refine Go.wp_mono (wp_meanLoop hm fuel _ _ c' (i + 1) p' (by omega) (fun e he => ?_)) (fun r p'' hr => ?_)
      · rw [hdim' e he]; simp [hdl]
      · refine ⟨hp.2 _ _ hr.1, ?_⟩
        have : r.2.dps[i]? = some d := by
          have : (r.2.dps.take (i + 1))[i]? = (c'.dps.take (i + 1))[i]? := by rw [hr.1.take]
          simpa [List.getElem?_take, h'] using this
        rw [drop_of_getElem? this, List.map_cons, hr.2, vecMeanLoop, if_neg (by simpa using hdl)]
where
  wp_skip_steps (tk : Nat → Int) (i : Nat) : ∀ (fuel : Nat) (c : Centroid F) (p : Nat),
      Go.wp (skipExpired tk i fuel c) (fun c' _ => ∃ removed, RmSteps c removed c') p
    | 0, c, p => by unfold skipExpired; rw [Go.wp_pure]; exact ⟨[], .refl c⟩
    | fuel + 1, c, p => by
      unfold skipExpired
      cases h : c.dps[i]? with
      | none => simp only [Go.wp_pure]; exact ⟨[], .refl c⟩
      | some d =>
        simp only [Go.wp_bind, DataPoint.wp_expired, Go.wp_ite, rm_eq h, Go.wp_pure]
        exact ⟨fun _ => Go.wp_mono (wp_skip_steps tk i fuel (c.rmP i d) (p + 1))
          (fun c' _ ⟨r, hr⟩ => ⟨d :: r, .step h hr⟩), fun _ => ⟨[], .refl c⟩⟩

theorem wp_moveVector {tk : Nat → Int} (hm : MonoClock tk) (c : Centroid F) (hd : c.DimOK) (p : Nat) :
    Go.wp (c.moveVector tk) (fun r p' => ∃ c1, Purged tk 0 p p' c c1 ∧
      r = if (vecMean (c1.dps.map (fun d => d.vec))).2
        then (true, { c1 with vec := (vecMean (c1.dps.map (fun d => d.vec))).1 }) else (false, c1)) p := by
  unfold moveVector genNext
  simp only [Go.wp_bind]
  refine Go.wp_mono (Go.wp_and (wp_skipExpired hm 0 _ c p (by omega)) (wp_meanLoop.wp_skip_steps tk 0 c.dps.length c p))
    (fun c' p' hp => ?_)
  obtain ⟨hp, removed, hrm⟩ := hp
  cases h' : c'.dps[0]? with
  | none =>
    rw [h'] at hp
    simp only [Go.wp_pure]
    refine ⟨c', hp.2, ?_⟩
    have : c'.dps = [] := by
      have := List.getElem?_eq_none_iff.1 h'
      exact List.length_eq_zero_iff.1 (by omega)
    rw [this]; rfl
  | some d =>
    rw [h'] at hp
    have hd' := hrm.dim hd
    have hdl : ∀ e ∈ c'.dps, e.vec.length = d.vec.length := by
      intro e he
      rw [hd'.2 e he, hd'.2 d (List.mem_of_getElem? h')]
    simp only [Go.wp_pure, Go.wp_bind, Go.wp_ite]
    refine Go.wp_mono (wp_meanLoop hm _ d.vec (ofNat 1) c' 1 p' (by omega) hdl) (fun r p'' hr => ?_)
    have hpg := hp.2 _ _ hr.1
    have hget : r.2.dps[0]? = some d := by
      have : (r.2.dps.take (0 + 1))[0]? = (c'.dps.take (0 + 1))[0]? := by rw [hr.1.take]
      simpa [List.getElem?_take, h'] using this
    have hmean : vecMean (r.2.dps.map (fun d => d.vec)) = r.1 := by
      have := drop_of_getElem? hget
      rw [List.drop_zero] at this
      rw [this, List.map_cons, hr.2]
      rfl
    constructor
    · intro hf
      exact ⟨r.2, hpg, by rw [hmean, if_pos hf]⟩
    · intro hf
      exact ⟨r.2, hpg, by rw [hmean, if_neg hf]⟩

/-! ### Adding -/

theorem wp_addDataPoint (tk : Nat → Int) (c : Centroid F) (d : DataPoint F) (Q : Bool × Centroid F → Nat → Prop) (p : Nat) :
    Go.wp (c.addDataPoint tk d) Q p ↔
      if d.vec.length ≠ c.vec.length then Q (false, c) p
      else if d.expiredAt (tk p) then Q (false, c) (p + 1) else Q (true, c.addRaw d) (p + 1) := by
  unfold addDataPoint
  by_cases h : d.vec.length = c.vec.length
  · by_cases he : d.expiredAt (tk p) = true <;> simp [h, he]
  · simp [h]

/-- `c'` evolved from `c` by removing datapoints and adding ones of the right dimension. -/
inductive Evolves : Centroid F → Centroid F → Prop
  | refl (c : Centroid F) : Evolves c c
  | rm {c c' : Centroid F} {i : Nat} {d : DataPoint F} (h : c.dps[i]? = some d) (hs : Evolves (c.rmP i d) c') : Evolves c c'
  | add {c c' : Centroid F} {d : DataPoint F} (h : d.vec.length = c.vec.length) (hs : Evolves (c.addRaw d) c') : Evolves c c'

theorem Evolves.trans {a b c : Centroid F} (h : Evolves a b) (h' : Evolves b c) : Evolves a c := by
  induction h with
  | refl c => exact h'
  | rm h hs ih => exact .rm h (ih h')
  | add h hs ih => exact .add h (ih h')

theorem RmSteps.evolves {a b : Centroid F} {x : List (DataPoint F)} (h : RmSteps a x b) : Evolves a b := by
  induction h with
  | refl c => exact .refl c
  | step h hs ih => exact .rm h ih

theorem addRaw_vec_length {c : Centroid F} {d : DataPoint F} (h : d.vec.length = c.vec.length) :
    (c.addRaw d).vec.length = c.vec.length := by
  simp [addRaw, vecDivScalar, vecAdd, vecMulScalar, h]

theorem addRaw_dimOK {c : Centroid F} {d : DataPoint F} (h : d.vec.length = c.vec.length) (hd : c.DimOK) :
    (c.addRaw d).DimOK := by
  intro e he
  rw [addRaw_vec_length h]
  rcases List.mem_append.1 he with he | he
  · exact hd e he
  · rw [List.mem_singleton.1 he]; exact h

theorem Evolves.search {a b : Centroid F} (h : Evolves a b) : b.knn = a.knn ∧ b.kfn = a.kfn := by
  induction h with
  | refl c => exact ⟨rfl, rfl⟩
  | rm h hs ih => exact ih
  | add h hs ih => exact ih

theorem Evolves.dim {a b : Centroid F} (h : Evolves a b) (hd : a.DimOK) : b.vec.length = a.vec.length ∧ b.DimOK := by
  induction h with
  | refl c => exact ⟨rfl, hd⟩
  | @rm c c' i d h hs ih =>
    have hl : (c.rmP i d).vec.length = c.vec.length := rmP_vec_length (hd d (List.mem_of_getElem? h))
    have := ih (fun e he => by rw [hl]; exact hd e ((List.eraseIdx_sublist _ _).subset he))
    exact ⟨this.1.trans hl, this.2⟩
  | @add c c' d h hs ih =>
    have := ih (addRaw_dimOK h hd)
    exact ⟨this.1.trans (addRaw_vec_length h), this.2⟩

/-! ### Heaps of centroids -/

/-- All datapoints of a heap of centroids. -/
def flat (h : List (Centroid F)) : List (DataPoint F) := h.flatMap (fun c => c.dps)

theorem flat_set {h : List (Centroid F)} {r : Nat} {c : Centroid F} (hr : h[r]? = some c) (c' : Centroid F) :
    (flat (h.set r c') ++ c.dps).Perm (flat h ++ c'.dps) := by
  induction h generalizing r with
  | nil => simp at hr
  | cons a h ih =>
    cases r with
    | zero =>
      simp only [List.getElem?_cons_zero, Option.some.injEq] at hr
      subst hr
      simp only [List.set_cons_zero, flat, List.flatMap_cons]
      permc [List.Perm.refl a.dps]
    | succ r =>
      have := ih (by simpa using hr)
      simp only [List.set_cons_succ, flat, List.flatMap_cons] at *
      permc [this]

theorem flat_set_length {h : List (Centroid F)} {r : Nat} {c : Centroid F} (hr : h[r]? = some c) (c' : Centroid F) :
    (flat (h.set r c')).length + c.dps.length = (flat h).length + c'.dps.length := by
  have := (flat_set hr c').length_eq
  simpa using this

/-- Pointwise evolution of a heap; all centroids other than `self` only gained datapoints at the end. -/
def HeapEvolves (self : Nat) (h h' : List (Centroid F)) : Prop :=
  h'.length = h.length ∧ ∀ (k : Nat) (c c' : Centroid F), h[k]? = some c → h'[k]? = some c' →
    Evolves c c' ∧ (k ≠ self → c.dps <+: c'.dps)

theorem HeapEvolves.refl (self : Nat) (h : List (Centroid F)) : HeapEvolves self h h :=
  ⟨rfl, fun k c c' h1 h2 => by rw [h1] at h2; cases h2; exact ⟨.refl c, fun _ => List.prefix_refl _⟩⟩

theorem HeapEvolves.trans {self : Nat} {h h' h'' : List (Centroid F)} (a : HeapEvolves self h h')
    (b : HeapEvolves self h' h'') : HeapEvolves self h h'' := by
  refine ⟨b.1.trans a.1, fun k c c'' h1 h2 => ?_⟩
  have hk : k < h.length := (List.getElem?_eq_some_iff.1 h1).1
  have h3 : h'[k]? = some (h'[k]'(by rw [a.1]; exact hk)) := List.getElem?_eq_getElem _
  have e1 := a.2 k c _ h1 h3
  have e2 := b.2 k _ c'' h3 h2
  exact ⟨e1.1.trans e2.1, fun hne => (e1.2 hne).trans (e2.2 hne)⟩

theorem HeapEvolves.set {self r : Nat} {h : List (Centroid F)} {c c' : Centroid F} (hr : h[r]? = some c)
    (he : Evolves c c') (hp : r ≠ self → c.dps <+: c'.dps) : HeapEvolves self h (h.set r c') := by
  refine ⟨by simp, fun k a a' h1 h2 => ?_⟩
  rcases eq_or_ne r k with rfl | hne
  · rw [hr] at h1
    cases h1
    rw [List.getElem?_set_self (List.getElem?_eq_some_iff.1 hr).1] at h2
    cases h2
    exact ⟨he, hp⟩
  · rw [List.getElem?_set_ne hne] at h2
    rw [h1] at h2
    cases h2
    exact ⟨.refl a, fun _ => List.prefix_refl _⟩

theorem addRaw_evolves {c : Centroid F} {d : DataPoint F} (h : d.vec.length = c.vec.length) : Evolves c (c.addRaw d) :=
  .add h (.refl _)

/-- The distribution loop: each pending datapoint ends up in exactly one centroid or has expired. -/
theorem wp_distributeLoop {tk : Nat → Int} (hm : MonoClock tk) (self : Nat) (receivers : List Nat) :
    ∀ (ds : List (DataPoint F)) (h : List (Centroid F)) (p : Nat) (c : Centroid F), h[self]? = some c →
      SearchOK c.knn → c.DimOK → (∀ r ∈ receivers, r < h.length) → (∀ d ∈ ds, d.vec.length = c.vec.length) →
      Go.wp (distributeLoop tk self receivers ds h) (fun h' p' => p ≤ p' ∧ HeapEvolves self h h' ∧
        (∀ c', h'[self]? = some c' → c.dps <+: c'.dps) ∧
        Conserved (tk p') (flat h ++ ds) (flat h') []) p
  | [], h, p, c, hc, hs, hdim, hr, hd => by
    unfold distributeLoop
    rw [Go.wp_pure]
    refine ⟨Nat.le_refl _, .refl _ _, fun c' h' => ?_, by simpa using Conserved.refl _ _⟩
    rw [hc] at h'; cases h'; exact List.prefix_refl _
  | d :: ds, h, p, c, hc, hs, hdim, hr, hd => by
    unfold distributeLoop
    have hself : self < h.length := (List.getElem?_eq_some_iff.1 hc).1
    have hdl : d.vec.length = c.vec.length := hd d (by simp)
    simp only [Go.wp_bind, Go.wp_idx, Go.wp_lift]
    refine ⟨c, hc, ?_⟩
    obtain ⟨is, h1, h2, h3, h4⟩ := hs d.vec (receiverVecs h receivers) 1 (by omega)
    refine ⟨is, h1, ?_⟩
    -- putting the datapoint back into `self` of some heap `h1`, then continuing
    have back : ∀ (hh : List (Centroid F)) (cc : Centroid F) (q : Nat), p ≤ q → hh[self]? = some cc →
        HeapEvolves self h hh → c.dps <+: cc.dps → (flat hh).Perm (flat h) →
        Go.wp (do let b ← cc.addDataPoint tk d; distributeLoop tk self receivers ds (hh.set self b.2))
          (fun h' p' => p ≤ p' ∧ HeapEvolves self h h' ∧ (∀ c', h'[self]? = some c' → c.dps <+: c'.dps) ∧
            Conserved (tk p') (flat h ++ d :: ds) (flat h') []) q := by
      intro hh cc q hpq hcc hev hpre hperm
      have hev' := hev.2 self c cc hc hcc
      have hccd := hev'.1.dim hdim
      have hlen : self < hh.length := (List.getElem?_eq_some_iff.1 hcc).1
      have hds : ∀ e ∈ ds, e.vec.length = cc.vec.length := fun e he => by rw [hccd.1]; exact hd e (by simp [he])
      simp only [Go.wp_bind, wp_addDataPoint]
      rw [if_neg (by rw [hccd.1]; simpa using hdl)]
      split
      · rename_i he
        have hset : hh.set self cc = hh := by
          apply List.ext_getElem? ; intro k
          rcases eq_or_ne self k with rfl | hne
          · rw [List.getElem?_set_self hlen, hcc]
          · rw [List.getElem?_set_ne hne]
        simp only [hset]
        refine Go.wp_mono (wp_distributeLoop hm self receivers ds hh (q + 1) cc hcc (by rw [hev'.1.search.1]; exact hs)
          hccd.2 (by rw [hev.1]; exact hr) hds) (fun h' p' hq => ?_)
        obtain ⟨k1, k2, k3, lost, k4, k5⟩ := hq
        refine ⟨by omega, hev.trans k2, fun c' h'' => hpre.trans (k3 c' h''), d :: lost, by permc [k4, hperm], ?_⟩
        intro e he'
        rcases List.mem_cons.1 he' with rfl | he'
        · exact ((expiredAt_iff _ _).1 he).mono hm (by omega)
        · exact k5 e he'
      · have hdl' : d.vec.length = cc.vec.length := by rw [hccd.1]; exact hdl
        have hset := flat_set hcc (cc.addRaw d)
        have hgs : (hh.set self (cc.addRaw d))[self]? = some (cc.addRaw d) := List.getElem?_set_self hlen
        have hev2 : HeapEvolves self hh (hh.set self (cc.addRaw d)) := .set hcc (addRaw_evolves hdl') (fun h => absurd rfl h)
        refine Go.wp_mono (wp_distributeLoop hm self receivers ds _ (q + 1) (cc.addRaw d) hgs
          (by rw [show (cc.addRaw d).knn = cc.knn from rfl, hev'.1.search.1]; exact hs)
          (addRaw_dimOK hdl' hccd.2) (by simpa [hev.1] using hr)
          (fun e he => by rw [addRaw_vec_length hdl']; exact hds e he)) (fun h' p' hq => ?_)
        obtain ⟨k1, k2, k3, lost, k4, k5⟩ := hq
        have hadd : (cc.addRaw d).dps = cc.dps ++ [d] := rfl
        refine ⟨by omega, (hev.trans hev2).trans k2, fun c' h'' => hpre.trans ((List.prefix_append _ _).trans (k3 c' h'')),
          lost, ?_, k5⟩
        rw [hadd] at hset
        permc [k4, hperm, hset]
    cases is with
    | nil =>
      simp only []
      exact back h c p (Nat.le_refl _) hc (.refl _ _) (List.prefix_refl _) (List.Perm.refl _)
    | cons j js =>
      simp only [Go.wp_bind, Go.wp_idx]
      have hj : j < receivers.length := by
        have := h3 j (by simp); simpa [receiverVecs] using this
      refine ⟨receivers[j], List.getElem?_eq_getElem hj, ?_⟩
      have hrj : receivers[j] < h.length := hr _ (List.getElem_mem hj)
      generalize receivers[j] = rj at hrj
      have hrc : h[rj]? = some h[rj] := List.getElem?_eq_getElem hrj
      refine ⟨h[rj], hrc, ?_⟩
      have refused : ∀ q, p ≤ q → Go.wp (do
            let c1 ← Go.idx (h.set rj h[rj]) self
            let b ← c1.addDataPoint tk d
            distributeLoop tk self receivers ds ((h.set rj h[rj]).set self b.2))
          (fun h' p' => p ≤ p' ∧ HeapEvolves self h h' ∧ (∀ c', h'[self]? = some c' → c.dps <+: c'.dps) ∧
            Conserved (tk p') (flat h ++ d :: ds) (flat h') []) q := by
        intro q hq
        rw [List.set_getElem_self]
        simp only [Go.wp_bind, Go.wp_idx]
        refine ⟨c, hc, ?_⟩
        have := back h c q hq hc (.refl _ _) (List.prefix_refl _) (List.Perm.refl _)
        simpa only [Go.wp_bind] using this
      rw [wp_addDataPoint]
      split
      · simpa using refused p (Nat.le_refl _)
      · rename_i hlen
        split
        · simpa using refused (p + 1) (by omega)
        · simp only [if_true]
          have hdl' : d.vec.length = h[rj].vec.length := by simpa using hlen
          have hset := flat_set hrc (h[rj].addRaw d)
          have hev2 : HeapEvolves self h (h.set rj (h[rj].addRaw d)) :=
            .set hrc (addRaw_evolves hdl') (fun _ => List.prefix_append _ _)
          have hsl : self < (h.set rj (h[rj].addRaw d)).length := by simpa using hself
          have hgs : (h.set rj (h[rj].addRaw d))[self]? = some ((h.set rj (h[rj].addRaw d))[self]) :=
            List.getElem?_eq_getElem hsl
          have hpre : c.dps <+: ((h.set rj (h[rj].addRaw d))[self]).dps := by
            rcases eq_or_ne rj self with heq | hne
            · subst heq
              rw [List.getElem?_set_self hrj] at hgs
              have := Option.some.inj hgs
              rw [← this]
              rw [hc] at hrc
              have := Option.some.inj hrc
              rw [← this]
              exact List.prefix_append _ _
            · rw [List.getElem?_set_ne hne, hc] at hgs
              have := Option.some.inj hgs
              rw [← this]
              exact List.prefix_refl _
          generalize (h.set rj (h[rj].addRaw d))[self] = cc at hgs hpre
          have hev' := hev2.2 self c cc hc hgs
          have hccd := hev'.1.dim hdim
          refine Go.wp_mono (wp_distributeLoop hm self receivers ds _ (p + 1) cc hgs
            (by rw [hev'.1.search.1]; exact hs) hccd.2 (by simpa using hr)
            (fun e he => by rw [hccd.1]; exact hd e (by simp [he]))) (fun h' p' hq => ?_)
          obtain ⟨k1, k2, k3, lost, k4, k5⟩ := hq
          have hadd : (h[rj].addRaw d).dps = h[rj].dps ++ [d] := rfl
          rw [hadd] at hset
          exact ⟨by omega, hev2.trans k2, fun c' h'' => hpre.trans (k3 c' h''), lost, by permc [k4, hset], k5⟩

end Centroid
end Trypo
